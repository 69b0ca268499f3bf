import Verif.Lemmas.Again
import Verif.Lemmas.Fail
import Verif.Props.Sampling
/-!
# C71: reading the headers first changes nothing
-/

namespace Zune
open M (wp wp_bind wp_mono wp_okOr wp_ite_of)
open Spec

/-- The decoder after it has read again the headers that have led to `c`: the strides of the
components come from the largest factors of all components (in the first run only from those of
the components before them), and in a progressive file the combined AC tables are those for
progressive files (in the first run only if they come after the frame header). -/
def reread (c : Decoder) : Decoder :=
  { c with
    components := c.components.map (restride c.mcuX)
    acTables := c.acTables.map (rebuilt c.isProgressive) }

theorem dims_new (cpu : Cpu) (o : Options) : Dims (Decoder.newWithOptions cpu o) :=
  ⟨fun h => by simp [Decoder.newWithOptions] at h, Or.inl rfl⟩

/-- The second run starts with the decoder of the first run at its end. -/
theorem again_start {cpu : Cpu} {o : Options} {c d : Decoder}
    (I : DecInv (Decoder.newWithOptions cpu o) c) (hd : d = c ∨ d = reread c) :
    Again c (Decoder.newWithOptions cpu o) d := by
  have e : d = { c with components := d.components, acTables := d.acTables } := by
    rcases hd with rfl | rfl <;> rfl
  have ha : ∀ i : Nat, d.acTables[i]? = c.acTables[i]? ∨
      d.acTables[i]? = c.acTables[i]?.map (rebuilt c.isProgressive) := by
    rcases hd with rfl | rfl
    · exact fun _ => Or.inl rfl
    · exact fun _ => Or.inr (List.getElem?_map ..)
  have hl : d.acTables.length = 4 := by
    rcases hd with rfl | rfl
    · exact I.tables.acLen
    · show (List.map _ c.acTables).length = 4
      rw [List.length_map]
      exact I.tables.acLen
  clear hd
  obtain ⟨cs, hcs⟩ : ∃ x, d.components = x := ⟨_, rfl⟩
  obtain ⟨ts, hts⟩ : ∃ x, d.acTables = x := ⟨_, rfl⟩
  rw [hcs, hts] at e
  rw [hts] at ha hl
  subst e
  clear hcs hts
  refine ⟨rfl, rfl, rfl, rfl, rfl, rfl, rfl, rfl, rfl, rfl, Or.inr rfl, I.opts, Or.inr rfl,
    Or.inr rfl, Or.inr rfl, Or.inr rfl, Or.inr rfl, Or.inr rfl, Or.inr rfl, Or.inr rfl, I.z,
    fun i => Or.inr rfl, I.tables.dcLen, fun i => Or.inr rfl, hl, fun i => ?_, I.qt,
    fun i => ?_, Or.inl rfl⟩
  · by_cases h : i < 4
    · right
      refine ⟨?_, ha i⟩
      show [none, none, none, none][i]? = _
      interval_cases i <;> rfl
    · left
      rw [List.getElem?_eq_none (by dsimp only; omega)]
      show none = Option.map _ (([none, none, none, none] : List (Option HuffmanTable))[i]?)
      rw [List.getElem?_eq_none (by simp; omega)]
      rfl
  · by_cases h : i < 4
    · right
      refine ⟨?_, rfl⟩
      show [none, none, none, none][i]? = _
      interval_cases i <;> rfl
    · left
      rw [List.getElem?_eq_none (by rw [I.qt]; omega)]
      show none = ([none, none, none, none] : List (Option (List Nat)))[i]?
      rw [List.getElem?_eq_none (by simp; omega)]

/-- Where the second run ends. -/
theorem again_end {c c' : Decoder} (D : Dims c) (h0 : c.info.components ≠ 0) (R : Again c c c') :
    c' = reread c := by
  obtain ⟨d1, d2, d3, d4⟩ := D.dims.resolve_left h0
  obtain ⟨f1, f2, f3, f4, f5, f6⟩ := R.frame.resolve_left h0
  have hz : c'.zOrder = c.zOrder := List.ext_getElem? fun i => (R.z i).elim id id
  have hdc : c'.dcTables = c.dcTables := List.ext_getElem? fun i => (R.dc i).elim id id
  have hqt : c'.qtTables = c.qtTables := List.ext_getElem? fun i => (R.qt i).elim id And.right
  have hac : c'.acTables = c.acTables.map (rebuilt c.isProgressive) := by
    refine List.ext_getElem? fun i => ?_
    rw [List.getElem?_map]
    rcases R.ac i with h | ⟨h1, h2⟩
    · exact h
    · have e : Option.map (rebuilt c.isProgressive) c.acTables[i]? = c.acTables[i]? := by
        rw [h1]
        unfold rebuilt
        cases c.isProgressive <;> rfl
      rcases h2 with h2 | h2
      · rw [h2, e]
      · exact h2
  have hx : c'.mcuX = c.mcuX := f5.trans d3.symm
  have hopt := R.opts.elim id id
  have := R.input.elim id id
  have := R.restart.elim id id
  have := R.todo.elim id id
  have := R.scans.elim id id
  have := R.start.elim id id
  have := R.stop.elim id id
  have := R.high.elim id id
  have := R.low.elim id id
  rw [hx] at f2
  have := R.cpu
  have := R.idct
  have := R.color
  have := R.sub
  have := R.prog
  have := R.h
  have := R.v
  have := R.inter
  have e3 := f3.trans d1.symm
  have e4 := f4.trans d2.symm
  have e6 := f6.trans d4.symm
  unfold reread
  cases c
  cases c'
  dsimp only at *
  subst_vars
  rfl

/-- Reading the headers of a file a second time, and a third time. -/
theorem reread_headers (cpu : Cpu) (o : Options) {buf rest : List UInt8} {c d : Decoder}
    (h : decodeHeaders ⟨Decoder.newWithOptions cpu o, buf⟩ = (.ok (), ⟨c, rest⟩))
    (hd : d = c ∨ d = reread c) :
    decodeHeaders ⟨d, buf⟩ = (.ok (), ⟨reread c, rest⟩) := by
  have I := (M.wp_ok (wp_decodeHeaders cpu o _) h).inv
  unfold decodeHeaders at h ⊢
  obtain ⟨v, ⟨d1, r1⟩, h1, h2⟩ := M.bind_ok_inv h
  unfold readU16 at h1
  match buf, h1, h2 with
  | [], h1, _ => simp at h1
  | [_], h1, _ => simp at h1
  | x :: y :: r, h1, h2 =>
    simp only [Prod.mk.injEq, Out.ok.injEq, H.mk.injEq] at h1
    obtain ⟨rfl, rfl, rfl⟩ := h1
    rw [M.bind_ok (show readU16 .exhausted ⟨d, x :: y :: r⟩ =
      (.ok (x.toUInt16 <<< 8 ||| y.toUInt16), ⟨d, r⟩) from rfl)]
    by_cases hm : x.toUInt16 <<< 8 ||| y.toUInt16 ≠ 0xffd8
    · rw [if_pos hm] at h2
      simp at h2
    · rw [if_neg hm] at h2 ⊢
      have D := (headerLoop_until _ _ _ _ _ h2).2 (dims_new cpu o)
      obtain ⟨c', k1, k2, k3⟩ := again_loop D _ _ _ _ _ _ (again_start I hd) h2
      rw [again_end D k3 k2] at k1
      exact k1

/-- **C71**, for arbitrary bytes: exactly how the decoder changes when it reads the same headers a
second time; the second run succeeds and ends at the same place of the input. -/
theorem c71_headers (cpu : Cpu) (o : Options) {buf : List UInt8} {c : Decoder}
    (h : (Decoder.newWithOptions cpu o).readHeaders buf = (.ok (), c)) :
    c.readHeaders buf = (.ok (), reread c) := by
  unfold Decoder.readHeaders at h ⊢
  rcases hd : decodeHeaders ⟨Decoder.newWithOptions cpu o, buf⟩ with ⟨r, ⟨c1, rest⟩⟩
  rw [hd] at h
  simp only [Prod.mk.injEq] at h
  obtain ⟨rfl, rfl⟩ := h
  rw [reread_headers cpu o hd (Or.inl rfl)]

theorem decode_after {d e : Decoder} {buf rest : List UInt8} {u u' : Unit}
    (h1 : decodeHeaders ⟨d, buf⟩ = (.ok u, ⟨e, rest⟩))
    (h2 : decodeHeaders ⟨e, buf⟩ = (.ok u', ⟨e, rest⟩)) :
    e.decodeBuffer buf = d.decodeBuffer buf := by
  unfold Decoder.decodeBuffer decodeInternal
  rw [M.bind_ok h1, M.bind_ok h2]

/-- **C71**, for arbitrary bytes whose headers can be read: if the decoder does not change when it
reads the headers again, then decoding after reading the headers gives what decoding alone gives,
be it an image, an error or a panic, and leaves the same decoder. -/
theorem c71_bytes_partial (cpu : Cpu) (o : Options) {buf : List UInt8} {c : Decoder}
    (h : (Decoder.newWithOptions cpu o).readHeaders buf = (.ok (), c)) (hc : reread c = c) :
    c.decodeBuffer buf = (Decoder.newWithOptions cpu o).decodeBuffer buf := by
  unfold Decoder.readHeaders at h
  rcases hd : decodeHeaders ⟨Decoder.newWithOptions cpu o, buf⟩ with ⟨r, ⟨c1, rest⟩⟩
  rw [hd] at h
  simp only [Prod.mk.injEq] at h
  obtain ⟨rfl, rfl⟩ := h
  have := reread_headers cpu o hd (Or.inl rfl)
  rw [hc] at this
  exact decode_after hd this

/-! ### Headers that cannot be read -/

/-- **C71**, for arbitrary bytes: reading the headers a second time ends as the first time, be it
with success, with an error or with a panic, although the first call may have left half of its
work in the decoder. -/
theorem c71_same_end (cpu : Cpu) (o : Options) (buf : List UInt8) :
    (((Decoder.newWithOptions cpu o).readHeaders buf).2.readHeaders buf).1 =
      ((Decoder.newWithOptions cpu o).readHeaders buf).1 := by
  rcases h : (Decoder.newWithOptions cpu o).readHeaders buf with ⟨r, c⟩
  show (c.readHeaders buf).1 = r
  by_cases hr : r.isOk = false
  · unfold Decoder.readHeaders at h ⊢
    rcases hd : decodeHeaders ⟨Decoder.newWithOptions cpu o, buf⟩ with ⟨r1, t⟩
    rw [hd] at h
    simp only [Prod.mk.injEq] at h
    obtain ⟨rfl, rfl⟩ := h
    obtain ⟨t', e⟩ := headers_fail_again cpu o hd hr
    rw [e]
  · rcases r with (u | _ | _ | _) <;> simp [Out.isOk] at hr
    rw [c71_headers cpu o h]

/-- The result of decoding when the headers cannot be read. -/
theorem decode_of_headers {d : Decoder} {buf : List UInt8} {r : Out Unit} {t : H}
    (h : decodeHeaders ⟨d, buf⟩ = (r, t)) (hr : r.isOk = false) :
    (d.decodeBuffer buf).1 = r.bind fun _ => .ok [] := by
  unfold Decoder.decodeBuffer decodeInternal
  rcases r with (u | e | p | _)
  · simp [Out.isOk] at hr
  · rw [M.bind_err h]
    rfl
  · rw [M.bind_panic h]
    rfl
  · rw [M.bind_diverge h]
    rfl

/-- **C71**, for arbitrary bytes whose headers cannot be read: decoding after the failed call of
`read_headers` fails as decoding alone does. -/
theorem c71_fails (cpu : Cpu) (o : Options) {buf : List UInt8} {r : Out Unit} {c : Decoder}
    (h : (Decoder.newWithOptions cpu o).readHeaders buf = (r, c)) (hr : r ≠ .ok ()) :
    (c.decodeBuffer buf).1 = ((Decoder.newWithOptions cpu o).decodeBuffer buf).1 ∧
      (c.decodeBuffer buf).1.isOk = false := by
  have hr : r.isOk = false := by
    rcases r with (u | _ | _ | _)
    · exact absurd rfl hr
    all_goals rfl
  unfold Decoder.readHeaders at h
  rcases hd : decodeHeaders ⟨Decoder.newWithOptions cpu o, buf⟩ with ⟨r1, t⟩
  rw [hd] at h
  simp only [Prod.mk.injEq] at h
  obtain ⟨rfl, rfl⟩ := h
  obtain ⟨t', e⟩ := headers_fail_again cpu o hd hr
  rw [decode_of_headers hd hr, decode_of_headers e hr]
  refine ⟨rfl, ?_⟩
  rcases r1 with (u | _ | _ | _)
  · simp [Out.isOk] at hr
  all_goals rfl

/-- A file whose frame header is refused for a quantization table that it does not have: the first
call has stored a table, the size and the sampling factors by then. -/
example (cpu : Cpu) :
    (Decoder.newWithOptions cpu Options.new).readHeaders
      ([0xFF, 0xD8] ++ [0xFF, 0xDB, 0x00, 0x43, 0x00] ++ List.replicate 64 255 ++
        [0xFF, 0xC0, 0x00, 0x11, 8, 0, 8, 0, 16, 3, 1, 0x21, 0, 2, 0x11, 1, 3, 0x11, 1]) =
    (.err .dqt, { Decoder.newWithOptions cpu Options.new with
      qtTables := [some (List.replicate 64 255), none, none, none]
      info := { width := 16, height := 8, pixelDensity := 8, components := 3 }
      hMax := 2, mcuWidth := 16, mcuHeight := 8, mcuX := 1, mcuY := 1, interleaved := true }) := by
  rcases cpu with ⟨a, b⟩
  revert a b
  decide +kernel

/-! ### Reading more often -/

/-- The decoder after reading the headers of a file so many times. -/
def readTimes (buf : List UInt8) : Nat → Decoder → Decoder
  | 0, d => d
  | n + 1, d => readTimes buf n (d.readHeaders buf).2

/-- **C71**, for arbitrary bytes whose headers can be read: from the second time on reading the
headers changes nothing, and decoding does not depend on how many more times they were read. -/
theorem c71_settles (cpu : Cpu) (o : Options) {buf : List UInt8} {c : Decoder}
    (h : (Decoder.newWithOptions cpu o).readHeaders buf = (.ok (), c)) (n : Nat) :
    readTimes buf (n + 2) (Decoder.newWithOptions cpu o) = reread c ∧
      (reread c).decodeBuffer buf = c.decodeBuffer buf := by
  unfold Decoder.readHeaders at h
  rcases hd : decodeHeaders ⟨Decoder.newWithOptions cpu o, buf⟩ with ⟨r, ⟨c1, rest⟩⟩
  rw [hd] at h
  simp only [Prod.mk.injEq] at h
  obtain ⟨rfl, rfl⟩ := h
  have h2 := reread_headers cpu o hd (Or.inl rfl)
  have h3 := reread_headers cpu o hd (Or.inr rfl)
  refine ⟨?_, decode_after h2 h3⟩
  have e1 : ((Decoder.newWithOptions cpu o).readHeaders buf).2 = c1 := by
    unfold Decoder.readHeaders
    rw [hd]
  have e2 : (c1.readHeaders buf).2 = reread c1 := by
    unfold Decoder.readHeaders
    rw [h2]
  have e3 : ((reread c1).readHeaders buf).2 = reread c1 := by
    unfold Decoder.readHeaders
    rw [h3]
  show readTimes buf n _ = _
  rw [e1, e2]
  induction n with
  | zero => rfl
  | succ n ih =>
    show readTimes buf n _ = _
    rw [e3]
    exact ih

/-! ### Files -/

/-- All AC tables are those for progressive files. -/
def AcFixed (d : Decoder) : Prop := ∀ t, some t ∈ d.acTables → rebuild t = t

theorem acFixed_parseHuffmanLoop {pn dv : Prop} : ∀ (fuel len : Nat) (s : H), len ≤ fuel →
    s.dec.isProgressive = true → AcFixed s.dec →
    wp pn dv (parseHuffmanLoop fuel len) (fun _ s' => AcFixed s'.dec) (fun _ _ => True) s
  | 0, len, s, hl, hp, ha => by
    unfold parseHuffmanLoop
    rw [if_neg (by omega)]
    exact ha
  | fuel + 1, len, s, hl, hp, ha => by
    unfold parseHuffmanLoop
    refine wp_ite_of (fun hpos => ?_) fun h => ha
    rw [wp_bind]
    refine wp_readByte (fun b r hr => ?_) (fun _ => trivial)
    dsimp only
    refine wp_ite_of (fun _ => trivial) fun hidx => ?_
    refine wp_ite_of (fun _ => trivial) fun hcls => ?_
    rw [wp_bind]
    refine wp_readExact (fun c r' hr' hc => ?_) (fun _ => trivial)
    refine wp_ite_of (fun _ => trivial) fun h256 => ?_
    refine wp_ite_of (fun _ => trivial) fun hsum => ?_
    rw [wp_bind]
    refine wp_readExact (fun v r'' hr'' hv => ?_) (fun _ => trivial)
    rw [wp_bind, wp_getDec, wp_bind, wp_okOr]
    refine ⟨fun t htab => ?_, fun _ => trivial⟩
    rw [wp_bind, wp_modDec]
    dsimp only at *
    refine acFixed_parseHuffmanLoop fuel _ _ (by omega) ?_ ?_
    · dsimp only
      split <;> exact hp
    · dsimp only
      split
      · exact ha
      · rename_i h0
        intro t' h'
        rcases mem_set h' with h' | h'
        · cases h'
          rw [hp, decide_eq_false h0] at htab
          obtain ⟨e1, e2, -⟩ := new_flag (q := true) htab
          unfold rebuild
          rw [e1, e2, htab]
          rfl
        · exact ha _ h'

theorem fromU8_dht {m : UInt8} (h : Marker.fromU8 m = some .dht) : m = 0xC4 := by
  have : ∀ n : Fin 256, Marker.fromU8 (UInt8.ofNat n) = some .dht → UInt8.ofNat n = 0xC4 := by
    decide +kernel
  have := this ⟨m.toNat, m.toNat_lt⟩
  rw [UInt8.ofNat_toNat] at this
  exact this h

theorem acFixed_segs : ∀ {l : List Segment} {d d' : Decoder}, (∀ s ∈ l, Segment.Plain s) →
    SegsOk l d d' → (d.isProgressive = true ∨ ∀ s ∈ l, s.marker ≠ 0xC4) → AcFixed d → AcFixed d'
  | [], d, d', _, h, _, ha => by
    have h : d' = d := h
    rw [h]; exact ha
  | s :: l, d, d', hs, ⟨d1, h1, h2⟩, hp, ha => by
    have t := tablesOnly_plain (hs s (by simp)) h1
    have hp1 : d1.isProgressive = d.isProgressive := by rw [t.dec]
    refine acFixed_segs (fun x hx => hs x (by simp [hx])) h2 ?_ ?_
    · rw [hp1]
      exact hp.imp id fun h x hx => h x (by simp [hx])
    · have h1 : segStep s.marker ⟨d, _⟩ = _ := h1
      unfold segStep at h1
      have skip : ∀ {r : List UInt8}, skipSegment ⟨d, r⟩ = (.ok (), ⟨d1, []⟩) → AcFixed d1 := by
        intro r h
        have := (M.wp_ok (wp_skipSegment (pn := True) (dv := False)) h).1
        dsimp only at this
        rw [this]; exact ha
      cases hm : Marker.fromU8 s.marker with
      | none => rw [hm] at h1; exact skip h1
      | some mk =>
        rw [hm] at h1
        dsimp only at h1
        unfold parseMarkerInner at h1
        cases mk
        case sof n => exact absurd hm ((hs s (by simp)).frame _)
        case dqt =>
          have := (M.wp_ok (wp_parseDqt (pn := True) (dv := False)) h1).2.1
          dsimp only at this
          rw [this]; exact ha
        case dht =>
          have hc4 := fromU8_dht hm
          have hp : d.isProgressive = true := by
            rcases hp with hp | hp
            · exact hp
            · exact absurd hc4 (hp s (by simp))
          dsimp only at h1
          unfold parseHuffman at h1
          obtain ⟨len, s1, e1, h1⟩ := M.bind_ok_inv h1
          have hd1 : s1.dec = d := by
            unfold readU16 at e1
            split at e1 <;> cases e1
            rfl
          by_cases hl : len < 2
          · rw [if_pos hl] at h1
            cases h1
          · rw [if_neg hl] at h1
            obtain ⟨left, s2, e2, h1⟩ := M.bind_ok_inv h1
            have := M.wp_ok (acFixed_parseHuffmanLoop (pn := True) (dv := False) _ _ _
              (Nat.sub_le _ _) (by rw [hd1]; exact hp) (by rw [hd1]; exact ha)) e2
            unfold M.failIf at h1
            by_cases h0 : left > 0
            · rw [decide_eq_true h0] at h1
              cases h1
            · rw [decide_eq_false h0] at h1
              cases h1
              exact this
        case sos =>
          exact absurd (fromU8_sos hm) (hs s (by simp)).header.sos
        case eoi => cases h1
        case dac => cases h1
        case dnl => cases h1
        case dri =>
          dsimp only at h1
          obtain ⟨len, s1, e1, h1⟩ := M.bind_ok_inv h1
          have hd1 : s1.dec = d := by
            unfold readU16 at e1
            split at e1 <;> cases e1
            rfl
          by_cases hl : len ≠ 4
          · rw [if_pos hl] at h1
            cases h1
          · rw [if_neg hl] at h1
            obtain ⟨ri, s2, e2, h1⟩ := M.bind_ok_inv h1
            have hd2 : s2.dec = d := by
              unfold readU16 at e2
              split at e2 <;> cases e2
              exact hd1
            have h1 : (Out.ok (), (⟨{ s2.dec with restartInterval := ri.toNat, todo := ri.toNat },
                s2.rd⟩ : H)) = (.ok (), ⟨d1, []⟩) := h1
            simp only [Prod.mk.injEq, H.mk.injEq, true_and] at h1
            rw [← h1.1, hd2]
            exact ha
        all_goals exact skip h1

theorem framePayload_short {w h : Nat} {cs : List CompSpec} (fits : FrameFits w h cs) :
    (framePayload w h cs).length + 2 < 65536 := by
  obtain ⟨hw, hh, hn, hc⟩ := fits
  have : ∀ l : List CompSpec, (l.flatMap CompSpec.bytes).length = 3 * l.length := by
    intro l
    induction l with
    | nil => rfl
    | cons c l ih =>
      rw [List.flatMap_cons, List.length_append, ih, List.length_cons]
      show 3 + _ = _
      omega
  unfold framePayload
  simp only [List.length_cons, List.length_append, twoBytes, List.length_nil, this]
  omega

/-- The decoder after the headers of a file with one frame header does not change when it reads
them again. -/
theorem reread_file (cpu : Cpu) (o : Options) {A B : List Segment} (hA : ∀ s ∈ A, Segment.Plain s)
    (hB : ∀ s ∈ B, Segment.Plain s) {m : UInt8} (hm : m = 0xC0 ∨ m = 0xC2)
    (hdht : m = 0xC2 → ∀ s ∈ A, s.marker ≠ 0xC4) {w h : Nat} {c : CompSpec}
    {cs : List CompSpec} (fits : FrameFits w h (c :: cs)) (hid : c.id = 1) (hids : ∀ x ∈ cs, x.id ≠ 1)
    {rest rd : List UInt8} {d : Decoder}
    (hr : decodeHeaders ⟨Decoder.newWithOptions cpu o, 0xFF :: 0xD8 ::
      ((A ++ ⟨m, framePayload w h (c :: cs)⟩ :: B).flatMap Segment.bytes ++ 0xFF :: 0xDA :: rest)⟩ =
      (.ok (), ⟨d, rd⟩))
    (hcheck : d.checkComponentDimensions = .ok ()) : reread d = d := by
  obtain ⟨F, -, -, hprog, -⟩ := file_decoder cpu o hA hB hm fits hid hids
    (show (Decoder.newWithOptions cpu o).readHeaders _ = (.ok (), d) by
      unfold Decoder.readHeaders; rw [hr]) hcheck
  have hcomp : d.components.map (restride d.mcuX) = d.components := by
    obtain ⟨y, ys, e, e1, e2, e3, e4, e5⟩ := F.comps
    have : ∀ x ∈ d.components, restride d.mcuX x = id x := by
      rw [e]
      intro x hx
      unfold restride
      rcases List.mem_cons.1 hx with rfl | hx
      · rw [show x.horizontalSample * (d.mcuX * 8) = x.widthStride by rw [e2, e4]]
        rfl
      · obtain ⟨-, f1, -, f2⟩ := e5 x hx
        rw [show x.horizontalSample * (d.mcuX * 8) = x.widthStride by rw [f1, f2, Nat.one_mul]]
        rfl
    rw [List.map_congr_left this, List.map_id]
  have hac : d.acTables.map (rebuilt d.isProgressive) = d.acTables := by
    have : ∀ x ∈ d.acTables, rebuilt d.isProgressive x = id x := by
      rcases hm with rfl | rfl
      · rw [hprog]
        exact fun x _ => rfl
      · rw [hprog]
        have hf : AcFixed d := by
          have hhead : ∀ s ∈ A ++ ⟨0xC2, framePayload w h (c :: cs)⟩ :: B, s.Header := by
            intro s hs
            simp only [List.mem_append, List.mem_cons] at hs
            rcases hs with hs | rfl | hs
            · exact (hA s hs).header
            · exact ⟨framePayload_short fits, (by decide : (0xC2 : UInt8) ≠ 0xFF),
                (by decide : (0xC2 : UInt8) ≠ 0xDA)⟩
            · exact (hB s hs).header
          rw [decodeHeaders_segments hhead] at hr
          obtain ⟨d3, hsegs, hl⟩ := hr
          obtain ⟨d1, s1, d2, s2, s3⟩ := SegsOk.append.1 hsegs
          have a0 : AcFixed (Decoder.newWithOptions cpu o) := by
            intro t ht
            simp [Decoder.newWithOptions] at ht
          have a1 := acFixed_segs hA s1 (Or.inr (hdht rfl)) a0
          obtain ⟨x, y, h1, h2, w1, w2, n, fs, cs', G⟩ : ∃ x y h1 h2 w1 w2 n fs cs',
            SofOk .progressiveDctHuffman { d1 with isProgressive := true } _ d2 []
              x y h1 h2 w1 w2 n fs cs' := segStep_effect s2
          have a2 : AcFixed d2 := by
            rw [G.dec]
            exact a1
          have a3 := acFixed_segs hB s3 (Or.inl (by rw [G.dec]; rfl)) a2
          obtain ⟨x', y', n', ss, se, a, ps, S⟩ := M.wp_ok (wp_parseSos (pn := True) (dv := False)
            (fun h => absurd trivial h)) (HL.sos_inv hl)
          have e := S.dec
          dsimp only at e
          rw [e]
          exact a3
        intro x hx
        cases x with
        | none => rfl
        | some t =>
          show some (rebuild t) = some t
          rw [hf t hx]
    rw [List.map_congr_left this, List.map_id]
  unfold reread
  rw [hcomp, hac]

/-- **C71**, for files: when a file with one frame header, whose first component and no other is
luma, is decoded to an image, then reading the headers first, any number of times, gives the same
image and leaves the same decoder. In a progressive file no Huffman tables may come before the frame
header (see `c71_false`). -/
theorem c71_file_partial (cpu : Cpu) (o : Options) {A B : List Segment}
    (hA : ∀ s ∈ A, Segment.Plain s)
    (hB : ∀ s ∈ B, Segment.Plain s) {m : UInt8} (hm : m = 0xC0 ∨ m = 0xC2)
    (hdht : m = 0xC2 → ∀ s ∈ A, s.marker ≠ 0xC4) {w h : Nat}
    {c : CompSpec} {cs : List CompSpec} (fits : FrameFits w h (c :: cs)) (hid : c.id = 1)
    (hids : ∀ x ∈ cs, x.id ≠ 1) {rest out buf : List UInt8}
    (hbuf : buf = 0xFF :: 0xD8 :: ((A ++ ⟨m, framePayload w h (c :: cs)⟩ :: B).flatMap
      Segment.bytes ++ 0xFF :: 0xDA :: rest))
    (hok : ((Decoder.newWithOptions cpu o).decodeBuffer buf).1 = .ok out) (n : Nat) :
    (readTimes buf n (Decoder.newWithOptions cpu o)).decodeBuffer buf =
      (Decoder.newWithOptions cpu o).decodeBuffer buf := by
  rcases hd : decodeInternal ⟨Decoder.newWithOptions cpu o, buf⟩ with ⟨r, s⟩
  have hok' := hok
  unfold Decoder.decodeBuffer at hok
  rw [hd] at hok
  obtain rfl : r = .ok out := hok
  unfold decodeInternal at hd
  obtain ⟨u, ⟨d, rd⟩, e1, hd⟩ := M.bind_ok_inv hd
  rw [M.bind_ok (getDec_apply _ _)] at hd
  have I := (M.wp_ok (wp_decodeHeaders cpu o _) e1).inv
  have hd1 : ((if d.isProgressive then decodeProgressive else decodeBaseline) ⟨d, rd⟩).1 =
      .ok out := by
    rw [hd]
  have hcheck := (decoded_factors (a := 0) (b := 0) ⟨I.spec.2, Nat.zero_le _, Nat.zero_le _⟩
    (fun _ => ⟨by omega, by omega⟩) hd1).1
  have hfix := reread_file cpu o hA hB hm hdht fits hid hids (hbuf ▸ e1) hcheck
  have h2 := reread_headers cpu o e1 (Or.inl rfl)
  rw [hfix] at h2
  match n with
  | 0 => rfl
  | n + 1 =>
    have e1' : ((Decoder.newWithOptions cpu o).readHeaders buf).2 = d := by
      unfold Decoder.readHeaders
      rw [e1]
    have e2 : (d.readHeaders buf).2 = d := by
      unfold Decoder.readHeaders
      rw [h2]
    have : readTimes buf n d = d := by
      induction n with
      | zero => rfl
      | succ n ih =>
        show readTimes buf n _ = _
        rw [e2]
        exact ih
    show (readTimes buf n _).decodeBuffer buf = _
    rw [e1', this]
    exact decode_after e1 h2

/-- A file of 16 x 8 samples whose first component is Cb; luma comes second and has the horizontal
factor two. -/
def Spec.cbFirst : List UInt8 :=
  [0xFF, 0xD8] ++ [0xFF, 0xDB, 0x00, 0x43, 0x00] ++ List.replicate 64 255 ++
  [0xFF, 0xC0, 0x00, 0x11, 8, 0, 8, 0, 16, 3, 2, 0x11, 0, 1, 0x21, 0, 3, 0x11, 0] ++
  ([0xFF, 0xC4, 0x00, 0x14, 0x00, 1] ++ List.replicate 15 0 ++ [0]) ++
  ([0xFF, 0xC4, 0x00, 0x14, 0x10, 1] ++ List.replicate 15 0 ++ [0]) ++
  [0xFF, 0xDA, 0x00, 0x0C, 3, 2, 0, 1, 0, 3, 0, 0, 63, 0] ++ List.replicate 20 0

/-- The claim is false: a progressive file with Huffman tables before its frame header is decoded to
another image after its headers were read, and a file that is refused is decoded. -/
theorem c71_false :
    (∃ v w : List UInt8, v ≠ w ∧
      ((Decoder.new ⟨false, false⟩).decodeBuffer (orderFile true)).1 = .ok v ∧
      (((Decoder.new ⟨false, false⟩).readHeaders (orderFile true)).2.decodeBuffer
        (orderFile true)).1 = .ok w) ∧
    ((Decoder.new ⟨false, false⟩).decodeBuffer cbFirst).1 = .err .format ∧
    (((Decoder.new ⟨false, false⟩).readHeaders cbFirst).2.decodeBuffer cbFirst).1 =
      .ok (List.replicate 384 0) := by
  refine ⟨⟨(((Decoder.new ⟨false, false⟩).decodeBuffer (orderFile true)).1.toOption).getD [],
    List.replicate 64 128, ?_, ?_, ?_⟩, ?_, ?_⟩
  all_goals decide +kernel

/-- Files to which the theorems apply: the headers of any number of components can be read, and
reading them a second time changes `cbFirst`'s decoder but not the decoder of a file that meets the
hypotheses of `c71_file_partial`. -/
example :
    ((Decoder.new ⟨false, false⟩).readHeaders cbFirst).1 = .ok () ∧
    (((Decoder.new ⟨false, false⟩).readHeaders cbFirst).2.components.map (·.widthStride),
      (reread ((Decoder.new ⟨false, false⟩).readHeaders cbFirst).2).components.map
        (·.widthStride)) = ([16, 16, 8], [8, 16, 8]) ∧
    ((Decoder.new ⟨false, false⟩).decodeBuffer (orderFile false)).1 = .ok (List.replicate 64 128) ∧
    orderFile false = 0xFF :: 0xD8 :: ((([⟨0xDB, 0 :: List.replicate 64 255⟩] : List Segment) ++
      ⟨0xC2, framePayload 8 8 [⟨1, 1, 1, 0⟩]⟩ ::
        ([⟨0xC4, [0x10, 1, 1] ++ List.replicate 14 0 ++ [0x10, 0xF1]⟩,
          ⟨0xC4, [0x00, 1] ++ List.replicate 15 0 ++ [0]⟩] : List Segment)).flatMap Segment.bytes ++
      0xFF :: 0xDA :: ([0x00, 0x08, 1, 1, 0x00, 0, 0, 0] ++ [0x7F] ++
        [0xFF, 0xDA, 0x00, 0x08, 1, 1, 0x00, 1, 63, 0] ++ [0x50, 0xFF, 0xD9])) := by
  refine ⟨?_, ?_, ?_, ?_⟩
  all_goals decide +kernel

end Zune
