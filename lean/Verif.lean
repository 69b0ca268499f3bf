import Verif.Model.Basic
import Verif.Model.Marker
import Verif.Model.Huffman
import Verif.Model.Bitstream
import Verif.Model.State
import Verif.Model.Headers
import Verif.Model.Slices
import Verif.Model.Idct
import Verif.Model.Upsample
import Verif.Model.Color
import Verif.Model.Worker
import Verif.Model.Mcu
import Verif.Model.Prog
import Verif.Props.Huffman
import Verif.Lemmas.Refill
import Verif.Props.Bits
import Verif.Props.Blocks
import Verif.Props.Approx
import Verif.Props.Options
import Verif.Props.Zigzag
import Verif.Props.Headers
import Verif.Props.Decode
import Verif.Props.Limits
import Verif.Props.Segments
import Verif.Props.Idct
import Verif.Props.Upsample
import Verif.Props.Color
import Verif.Props.Safety
import Verif.Props.Strips
import Verif.Props.Scan
import Verif.Props.Runs
import Verif.Props.Threads
import Verif.Props.Reuse
import Verif.Props.Gray
import Verif.Props.Accuracy
import Verif.Props.RoundTrip
import Verif.Props.Progressive
import Verif.Props.Exact
import Verif.Props.Tables
import Verif.Props.Colour
import Verif.Props.ColourRgb
import Verif.Props.ColourTrip
import Verif.Props.ProgColour
import Verif.Props.ColourExact
import Verif.Props.ColourPixel
import Verif.Props.ColourRestart
import Verif.Props.ColourPadding
import Verif.Props.Trailing
import Verif.Props.Damage
import Verif.Props.NoPanic
import Verif.Props.GrayFactors
import Verif.Props.Between
import Verif.Props.ScanHeader
import Verif.Props.Products
import Verif.Props.ReuseFiles
import Verif.Props.FastTable
import Verif.Props.Sampling
import Verif.Props.ProgProducts
import Verif.Lemmas.Again
import Verif.Lemmas.Fail
import Verif.Props.ReadTwice
import Verif.Props.TableOrder
import Verif.Props.LateRestart
import Verif.Props.ScalarTrip
import Verif.Props.Fill
import Verif.Props.NoPanicBytes
import Verif.Lemmas.Formats
import Verif.Lemmas.FormatsOut
import Verif.Props.Formats
import Verif.Lemmas.Simd
import Verif.Props.Simd
import Verif.Props.Memory
import Verif.Props.Separate
import Verif.Props.ProgExact
import Verif.Lemmas.NamedHead
import Verif.Props.Order
import Verif.Props.Locality
import Verif.Props.Brighter
import Verif.Audit
