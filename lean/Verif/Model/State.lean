import Verif.Model.Bitstream
/-!
# The decoder object (`decoder.rs`, `components.rs`)
-/

namespace Zune

/-- `decoder.rs:23` (`MAX_COMPONENTS`) -/
def MAX_COMPONENTS : Nat := 4

/-- `components.rs:117-127` -/
inductive ComponentID where
  | y | cb | cr
  deriving DecidableEq, Repr

/-- `components.rs:129-136` -/
inductive SubSampRatios where
  | hv | v | h | none
  deriving DecidableEq, Repr

/-- The functions that an `up_sampler` pointer can point to (`upsampler.rs:82-111`,
`decoder.rs:468-523`). -/
inductive UpSampler where
  | noOp | hScalar | hSse | vertical | hvScalar | hvAvx
  deriving DecidableEq, Repr

/-- The functions that `idct_func` can point to (`idct.rs:40-61`). -/
inductive IdctFn where
  | scalar | avx2
  deriving DecidableEq, Repr

/-- The functions that `color_convert_16` can point to (`color_convert.rs:61-107`). -/
inductive ColorFn where
  | rgbScalar | rgbSse | rgbAvx | rgbaScalar | rgbaSse | rgbaAvx | rgbxAvx
  deriving DecidableEq, Repr

/-- `misc.rs:142-158`, the two frame types that the decoder accepts. -/
inductive SofMarker where
  | baselineDct | progressiveDctHuffman
  deriving DecidableEq, Repr

/-- `components.rs:18-43`; the quantization table holds `i32` values read from bytes, hence `Nat`.
-/
structure Component where
  componentId : ComponentID
  verticalSample : Nat
  horizontalSample : Nat
  dcHuffTable : Nat := 0
  acHuffTable : Nat := 0
  quantTableNumber : Nat
  quantTable : List Nat := List.replicate 64 0
  dcPred : I32 := 0
  upSampler : UpSampler := .noOp
  widthStride : Nat
  id : UInt8
  deriving DecidableEq, Repr

/-- `usize::is_power_of_two` for values below 16 (a 4 bit field). -/
def isPow2 (n : Nat) : Bool := n = 1 || n = 2 || n = 4 || n = 8

/-- `components.rs:49-114` (`Components::from`) -/
def Component.from (a b c : UInt8) : Out Component :=
  let mk (cid : ComponentID) : Out Component :=
    let h := (b >>> 4).toNat
    let v := (b &&& 0x0f).toNat
    if c.toNat ≥ MAX_COMPONENTS then .err .format
    else if !isPow2 h then .err .format
    else if !isPow2 v then .err .format
    else .ok { componentId := cid, verticalSample := v, horizontalSample := h,
               quantTableNumber := c.toNat, widthStride := h, id := a }
  if a = 1 then mk .y
  else if a = 2 then mk .cb
  else if a = 3 then mk .cr
  else .err .format

/-- `decoder.rs:650-668` -/
structure ImageInfo where
  width : UInt16 := 0
  height : UInt16 := 0
  pixelDensity : UInt8 := 0
  sof : SofMarker := .baselineDct
  xDensity : UInt16 := 0
  yDensity : UInt16 := 0
  components : UInt8 := 0
  deriving DecidableEq, Repr

/-- `decoder.rs:60-121`. The CPU features are part of the object so that the choices made through
`is_x86_feature_detected!` are a function of the state. -/
structure Decoder where
  cpu : Cpu
  info : ImageInfo := {}
  qtTables : List (Option (List Nat)) := [none, none, none, none]
  dcTables : List (Option HuffmanTable) := [none, none, none, none]
  acTables : List (Option HuffmanTable) := [none, none, none, none]
  components : List Component := []
  hMax : Nat := 1
  vMax : Nat := 1
  mcuWidth : Nat := 0
  mcuHeight : Nat := 0
  mcuX : Nat := 0
  mcuY : Nat := 0
  interleaved : Bool := false
  subSampleRatio : SubSampRatios := .none
  inputColorspace : ColorSpace := .ycbcr
  isProgressive : Bool := false
  specStart : Nat := 0
  specEnd : Nat := 0
  succHigh : Nat := 0
  succLow : Nat := 0
  numScans : Nat := 0
  idctFn : IdctFn
  colorFn : ColorFn
  zOrder : List Nat := [0, 0, 0, 0]
  restartInterval : Nat := 0
  todo : Nat := 0x7fffffff
  options : Options
  deriving DecidableEq, Repr

/-- `idct.rs:40-61` (`choose_idct_func`) -/
def chooseIdct (cpu : Cpu) (useUnsafe : Bool) : IdctFn :=
  if useUnsafe && cpu.avx2 then .avx2 else .scalar

/-- `color_convert.rs:61-107` (`choose_ycbcr_to_rgb_convert_func`) -/
def chooseColor (cpu : Cpu) (cs : ColorSpace) (useUnsafe : Bool) : Option ColorFn :=
  if useUnsafe && cpu.avx2 then
    match cs with
    | .rgb => some .rgbAvx
    | .rgba => some .rgbaAvx
    | .rgbx => some .rgbxAvx
    | _ => none
  else if useUnsafe && cpu.sse41 then
    match cs with
    | .rgb => some .rgbSse
    | .rgba | .rgbx => some .rgbaSse
    | _ => none
  else
    match cs with
    | .rgb => some .rgbScalar
    | .rgba | .rgbx => some .rgbaScalar
    | _ => none

/-- `upsampler.rs:82-96` (`choose_horizontal_samp_function`) -/
def chooseHorizontal (cpu : Cpu) (useUnsafe : Bool) : UpSampler :=
  if useUnsafe && cpu.sse41 then .hSse else .hScalar

/-- `upsampler.rs:97-111` (`choose_hv_samp_function`) -/
def chooseHv (cpu : Cpu) (useUnsafe : Bool) : UpSampler :=
  if useUnsafe && cpu.avx2 then .hvAvx else .hvScalar

/-- `decoder.rs:125-170`. The `unwrap` of the converter for RGB never fails. -/
def Decoder.newWithOptions (cpu : Cpu) (o : Options) : Decoder :=
  { cpu := cpu
    idctFn := chooseIdct cpu o.getUseUnsafe
    colorFn := (chooseColor cpu .rgb o.getUseUnsafe).getD .rgbScalar
    options := o }

/-- `decoder.rs:186-189` -/
def Decoder.new (cpu : Cpu) : Decoder := Decoder.newWithOptions cpu Options.new

/-- `decoder.rs:210-222` -/
def Decoder.getInfo (d : Decoder) : Option ImageInfo := if d.info = {} then none else some d.info

/-- `decoder.rs:413-418` -/
def Decoder.getOutputColorspace (d : Decoder) : ColorSpace := d.options.getOutColorspace

/-- `decoder.rs:561-564` -/
def Decoder.width (d : Decoder) : UInt16 := d.info.width
/-- `decoder.rs:570-573` -/
def Decoder.height (d : Decoder) : UInt16 := d.info.height

/-- `decoder.rs:535-539` -/
def Decoder.rgba (d : Decoder) : Decoder :=
  { d with options := d.options.setOutColorspace .rgba }
/-- `decoder.rs:545-548` -/
def Decoder.setLimits (d : Decoder) (w h : Nat) : Decoder :=
  { d with options := (d.options.setMaxWidth w).setMaxHeight h }
/-- `decoder.rs:553-556` -/
def Decoder.setOutputColorspace (d : Decoder) (c : ColorSpace) : Decoder :=
  { d with options := d.options.setOutColorspace c }
/-- `decoder.rs:591-603`; `threads as u32` truncates. -/
def Decoder.setNumThreads (threads : Nat) : M Decoder Unit := fun d =>
  if threads = 0 then (.err .formatStatic, d)
  else if threads % 2 ^ 32 = 0 then (.panic .unwrap, d)
  else (.ok (), { d with options := d.options.setNumThreads (threads % 2 ^ 32) })

/-- `decoder.rs:625-642`: the loop of `check_component_dimensions`. -/
def checkDims (cw : Nat) : List Component → Out Unit
  | [] => .ok ()
  | c :: cs =>
    if c.componentId = .y then checkDims cw cs
    else if c.widthStride ≠ cw then .err .format
    else if c.horizontalSample ≠ 1 ∨ c.verticalSample ≠ 1 then .err .format
    else checkDims cw cs

/-- `decoder.rs:609-646` (`check_component_dimensions`) -/
def Decoder.checkComponentDimensions (d : Decoder) : Out Unit :=
  match d.components.find? (fun c => c.componentId = .y) with
  | none => .err .formatStatic
  | some c => if d.hMax = 0 then .panic .zero else checkDims (c.widthStride / d.hMax) d.components

/-- `self.components[1..].iter_mut().for_each(|x| x.up_sampler = u)`; the slice panics only for an
empty vector. -/
def setTailUpSampler (u : UpSampler) : List Component → Out (List Component)
  | [] => .panic .index
  | c :: cs => .ok (c :: cs.map fun x => { x with upSampler := u })

/-- `decoder.rs:468-523` (`set_upsampling`) -/
def Decoder.setUpsampling : M Decoder Unit := fun d =>
  let go (r : SubSampRatios) (u : UpSampler) : Out Unit × Decoder :=
    let d := { d with subSampleRatio := r }
    match setTailUpSampler u d.components with
    | .ok cs => (.ok (), { d with components := cs })
    | .err e => (.err e, d)
    | .panic p => (.panic p, d)
    | .diverge => (.diverge, d)
  if d.hMax = d.vMax ∧ d.hMax = 1 then (.ok (), d)
  else if d.hMax = 2 ∧ d.vMax = 1 then go .h (chooseHorizontal d.cpu d.options.useUnsafe)
  else if d.hMax = 1 ∧ d.vMax = 2 then go .v .vertical
  else if d.hMax = 2 ∧ d.vMax = 2 then go .hv (chooseHv d.cpu d.options.useUnsafe)
  else (.err .format, d)

end Zune
