import Verif.Lemmas.HeaderLoop
import Verif.Lemmas.Local
import Verif.Model.Prog
import Mathlib.Data.List.Infix
/-!
# Properties C01 to C06, C48, C51, C52: reading the headers
-/

namespace Zune
open M (wp wp_bind wp_mono wp_pure wp_throw wp_idx wp_idx_of wp_okOr wp_ofOut wp_failIf wp_ite_of
  wp_diverge wp_panic)
open Spec

/-! ### C01 -/

theorem decodeHeaders_magic (d : Decoder) (a b : UInt8) (r : List UInt8)
    (h : ¬ (a = 0xFF ∧ b = 0xD8)) : decodeHeaders ⟨d, a :: b :: r⟩ =
      (.err (.illegalMagic (256 * a.toNat + b.toNat)), ⟨d, r⟩) := by
  have hne : be16 a b ≠ 0xffd8 := by
    intro he
    have h1 : (be16 a b).toNat = 0xffd8 := by rw [he]; rfl
    rw [be16, u16_toNat] at h1
    have ha := a.toNat_lt
    have hb := b.toNat_lt
    exact h ⟨UInt8.toNat_inj.1 (by show a.toNat = 255; omega),
      UInt8.toNat_inj.1 (by show b.toNat = 216; omega)⟩
  unfold decodeHeaders
  have hr : readU16 .exhausted ⟨d, a :: b :: r⟩ = (.ok (be16 a b), ⟨d, r⟩) := rfl
  rw [M.bind_ok hr, if_pos hne]
  simp only [M.throw_apply, be16, u16_toNat]
  rw [Nat.mul_comm]

theorem decodeHeaders_short (d : Decoder) (buf : List UInt8) (h : buf.length < 2) :
    decodeHeaders ⟨d, buf⟩ = (.err .exhausted, ⟨d, []⟩) := by
  rcases buf with _ | ⟨a, _ | ⟨b, r⟩⟩
  · rfl
  · rfl
  · simp at h; omega

/-- **C01.** A buffer of at least two bytes that does not start with `FF D8` is rejected with
`IllegalMagicBytes` holding the first two bytes, a shorter one with `ExhaustedData`; the decoder is
not changed. -/
theorem c01_magic (d : Decoder) :
    (∀ (a b : UInt8) (r : List UInt8), ¬ (a = 0xFF ∧ b = 0xD8) →
      d.decodeBuffer (a :: b :: r) = (.err (.illegalMagic (256 * a.toNat + b.toNat)), d) ∧
      d.readHeaders (a :: b :: r) = (.err (.illegalMagic (256 * a.toNat + b.toNat)), d)) ∧
    (∀ buf : List UInt8, buf.length < 2 →
      d.decodeBuffer buf = (.err .exhausted, d) ∧ d.readHeaders buf = (.err .exhausted, d)) := by
  refine ⟨fun a b r h => ⟨?_, ?_⟩, fun buf h => ⟨?_, ?_⟩⟩
  · unfold Decoder.decodeBuffer decodeInternal
    rw [M.bind_err (decodeHeaders_magic d a b r h)]
  · unfold Decoder.readHeaders
    rw [decodeHeaders_magic d a b r h]
  · unfold Decoder.decodeBuffer decodeInternal
    rw [M.bind_err (decodeHeaders_short d buf h)]
  · unfold Decoder.readHeaders
    rw [decodeHeaders_short d buf h]

/-- A buffer for the first part: a GIF header. -/
example : ¬ ((0x47 : UInt8) = 0xFF ∧ (0x49 : UInt8) = 0xD8) := by decide

/-! ### The frame header in the file -/

namespace Spec

/-- The bytes start with a marker code and a frame header that says what `info` says (T.81
B.2.2). -/
def StartsWithFrame (bytes : List UInt8) (info : ImageInfo) : Prop :=
  ∃ (c l1 l2 h1 h2 w1 w2 : UInt8) (comps rest : List UInt8),
    bytes = c :: l1 :: l2 :: 8 :: h1 :: h2 :: w1 :: w2 :: info.components :: (comps ++ rest) ∧
    (c = 0xC0 ∧ info.sof = .baselineDct ∨ c = 0xC2 ∧ info.sof = .progressiveDctHuffman) ∧
    256 * l1.toNat + l2.toNat = 8 + 3 * info.components.toNat ∧
    info.height.toNat = 256 * h1.toNat + h2.toNat ∧
    info.width.toNat = 256 * w1.toNat + w2.toNat ∧
    comps.length = 3 * info.components.toNat

/-- Two bytes `FF` in a row. -/
def DoubleFF (buf : List UInt8) : Prop := ∃ pre post, buf = pre ++ 0xFF :: 0xFF :: post

end Spec

theorem fromU8_sof {c : UInt8} {k : Nat} (h : Marker.fromU8 c = some (.sof k)) :
    (c = 0xC0 ∧ k = 0) ∨ (c = 0xC2 ∧ k = 2) := by
  unfold Marker.fromU8 at h
  split at h <;> simp at h
  · rename_i e
    exact Or.inl ⟨UInt8.toNat_inj.1 e, h.symm⟩
  · rename_i e
    exact Or.inr ⟨UInt8.toNat_inj.1 e, h.symm⟩

theorem fromU8_ff : Marker.fromU8 0xFF = none := by decide

/-- Where a frame header was read from. -/
def FrameSeen (buf : List UInt8) (d : Decoder) : Prop :=
  d.info = {} ∨ ∃ pre bytes, buf = pre ++ bytes ∧ StartsWithFrame bytes d.info ∧
    (DoubleFF buf ∨ ∃ p, pre = p ++ [0xFF])

theorem bytes_length (c : Component) : c.bytes.length = 3 := rfl

theorem flatMap_bytes_length (cs : List Component) :
    (cs.flatMap Component.bytes).length = 3 * cs.length := by
  induction cs with
  | nil => rfl
  | cons c cs ih => simp [List.flatMap_cons, bytes_length, ih]; omega

theorem be16_toNat (a b : UInt8) : (be16 a b).toNat = 256 * a.toNat + b.toNat := by
  rw [be16, u16_toNat]; ring

theorem SofOk.starts {sof : SofMarker} {d d' : Decoder} {rd rd' : List UInt8}
    {x y h1 h2 w1 w2 n : UInt8} {cs cs' : List Component}
    (h : SofOk sof d rd d' rd' x y h1 h2 w1 w2 n cs cs') {c : UInt8}
    (hc : c = 0xC0 ∧ sof = .baselineDct ∨ c = 0xC2 ∧ sof = .progressiveDctHuffman) :
    StartsWithFrame (c :: rd) d'.info := by
  refine ⟨c, x, y, h1, h2, w1, w2, cs'.flatMap Component.bytes, rd', ?_, ?_, ?_, ?_, ?_, ?_⟩
  · rw [h.bytes, h.dec]; rfl
  · rw [h.dec]; exact hc
  · rw [h.dec, ← be16_toNat]; exact h.len
  · rw [h.dec, ← be16_toNat]; rfl
  · rw [h.dec, ← be16_toNat]; rfl
  · rw [h.dec, flatMap_bytes_length, h.count]; rfl

/-- The invariant of the marker loop on a new decoder. -/
structure Between (buf : List UInt8) (d0 : Decoder) (last : UInt8) (s : H) : Prop where
  inv : DecInv d0 s.dec
  rest : ∃ pre, buf = pre ++ s.rd
  ff : last = 0xFF → DoubleFF buf ∨ ∃ pre, buf = pre ++ 0xFF :: s.rd
  seen : FrameSeen buf s.dec

/-- A frame header with four or more components is in the file. -/
def ManyComponents (buf : List UInt8) : Prop :=
  ∃ pre bytes info, buf = pre ++ bytes ∧ StartsWithFrame bytes info ∧ 4 ≤ info.components.toNat

/-- What is known when the headers were read. -/
structure HeadersRead (buf : List UInt8) (d0 : Decoder) (d : Decoder) (rd : List UInt8) : Prop where
  inv : DecInv d0 d
  rest : ∃ pre, buf = pre ++ rd
  seen : FrameSeen buf d
  frame : d.info.components ≠ 0
  scan : ∃ (d1 : Decoder) (rd1 : List UInt8) (x y n ss se a : UInt8) (ps : List (UInt8 × UInt8)),
    SosOk d1 rd1 d rd x y n ss se a ps

theorem headerStep_between {buf : List UInt8} {d0 : Decoder} (last : UInt8) (count : Nat)
    (m : UInt8) (r : List UInt8) (s : H) (hJ : Between buf d0 last s) (hr : s.rd = m :: r) :
    wp (ManyComponents buf) False (headerStep last count m)
      (fun o s' => s'.rd.length ≤ r.length ∧
        match o with
        | none => HeadersRead buf d0 s'.dec s'.rd
        | some _ => Between buf d0 m s') (fun _ _ => True) ⟨s.dec, r⟩ := by
  obtain ⟨pre, hpre⟩ := hJ.rest
  have hstuff : ∀ s' : H, s'.rd <:+ r → ∃ pre, buf = pre ++ s'.rd := by
    rintro s' ⟨t, ht⟩
    exact ⟨pre ++ m :: t, by rw [hpre, hr, ← ht]; simp⟩
  unfold headerStep
  refine wp_ite_of (fun hl => ?_) fun hl => ?_
  · have hff := hJ.ff hl
    have hprev : DoubleFF buf ∨ ∃ p, buf = (p ++ [0xFF]) ++ m :: r := by
      rcases hff with h | ⟨p, h⟩
      · exact Or.inl h
      · exact Or.inr ⟨p, by rw [h, hr]; simp⟩
    cases hm : Marker.fromU8 m with
    | none =>
      dsimp only
      rw [wp_bind]
      refine wp_mono wp_skipSegment ?_ (fun _ _ _ => trivial)
      rintro _ s' ⟨h1, h2, h3⟩
      rw [wp_pure]
      dsimp only at h1 h2 h3 ⊢
      refine ⟨by omega, ?_⟩
      constructor
      · rw [h1]; exact hJ.inv
      · exact hstuff _ h2
      · rintro rfl
        rcases hprev with h | ⟨p, h⟩
        · exact Or.inl h
        · exact Or.inl ⟨p, r, by rw [h]; simp⟩
      · rw [FrameSeen, h1]; exact hJ.seen
    | some mk =>
      dsimp only
      rw [wp_bind]
      refine wp_mono (wp_parseMarkerInner (d0 := d0) mk hJ.inv fun hp => ?_) ?_
        (fun _ _ _ => trivial)
      · -- the components fit the array of the scan header
        by_contra hgt
        dsimp only at hgt
        apply hp
        rcases hJ.seen with h0 | ⟨p, b, h1, h2, -⟩
        · rcases hJ.inv.frame with ⟨-, h4⟩ | ⟨-, h5, h6, -⟩
          · rw [h4] at hgt; simp at hgt
          · rw [h0] at h6; exact absurd rfl h6
        · refine ⟨p, b, s.dec.info, h1, h2, ?_⟩
          rcases hJ.inv.frame with ⟨-, h4⟩ | ⟨-, h5, -⟩
          · rw [h4] at hgt; simp at hgt
          · omega
      · rintro _ s' ⟨hI, hsuf, hlen, heff⟩
        dsimp only at hsuf hlen
        have hne : m ≠ 0xFF := by
          rintro rfl
          rw [fromU8_ff] at hm; cases hm
        have hother : s'.dec.info = s.dec.info → FrameSeen buf s'.dec := by
          intro h; rw [FrameSeen, h]; exact hJ.seen
        have hseen : FrameSeen buf s'.dec := by
          have hs : ∀ sof d, (m = 0xC0 ∧ sof = .baselineDct ∨
              m = 0xC2 ∧ sof = .progressiveDctHuffman) →
              (∃ x y h1 h2 w1 w2 n cs cs', SofOk sof d r s'.dec s'.rd x y h1 h2 w1 w2 n cs cs') →
              FrameSeen buf s'.dec := by
            rintro sof d hk ⟨x, y, h1, h2, w1, w2, n, cs, cs', h⟩
            right
            refine ⟨pre, m :: r, by rw [hpre, hr], h.starts hk, ?_⟩
            rcases hprev with h | ⟨p, h⟩
            · exact Or.inl h
            · right
              refine ⟨p, ?_⟩
              rw [hpre, hr] at h
              exact List.append_cancel_right h
          unfold Effect at heff
          split at heff
          · rcases fromU8_sof hm with ⟨h, -⟩ | ⟨-, h⟩
            · exact hs _ _ (Or.inl ⟨h, rfl⟩) heff
            · omega
          · rcases fromU8_sof hm with ⟨-, h⟩ | ⟨h, -⟩
            · omega
            · exact hs _ _ (Or.inr ⟨h, rfl⟩) heff
          · obtain ⟨x, y, n, ss, se, a, ps, h⟩ := heff
            exact hother (by rw [h.dec])
          · exact hother (by rw [heff.dec])
        refine wp_ite_of (fun hsos => ?_) fun hsos => ?_
        · rw [wp_pure]
          refine ⟨by omega, ?_⟩
          dsimp only
          subst hsos
          obtain ⟨x, y, n, ss, se, a, ps, h⟩ := heff
          have hinfo : s'.dec.info = s.dec.info := by rw [h.dec]
          exact ⟨hI, hstuff _ hsuf, hseen, by rw [hinfo]; exact h.frame, _, _, _, _, _, _, _, _, _, h⟩
        · rw [wp_pure]
          refine ⟨by omega, ?_⟩
          dsimp only
          exact ⟨hI, hstuff _ hsuf, fun h => absurd h hne, hseen⟩
  · rw [wp_pure]
    dsimp only
    refine ⟨Nat.le_refl _, ?_⟩
    constructor
    · exact hJ.inv
    · exact hstuff _ ⟨[], rfl⟩
    · rintro rfl
      exact Or.inr ⟨pre, by rw [hpre, hr]⟩
    · exact hJ.seen

theorem wp_decodeHeaders (cpu : Cpu) (o : Options) (buf : List UInt8) :
    wp (ManyComponents buf) False decodeHeaders
      (fun _ s' => HeadersRead buf (Decoder.newWithOptions cpu o) s'.dec s'.rd) (fun _ _ => True)
      ⟨Decoder.newWithOptions cpu o, buf⟩ := by
  show wp _ _ (do
    let magic ← readU16 .exhausted
    if magic ≠ 0xffd8 then M.throw (.illegalMagic magic.toNat)
    else headerLoop (buf.length + 1) 0 0 : M H Unit) _ _ _
  rw [wp_bind]
  refine wp_readU16 (fun a b r hr => ?_) (fun _ => trivial)
  refine wp_ite_of (fun _ => trivial) fun _ => ?_
  dsimp only at hr
  refine wp_headerLoop (J := Between buf (Decoder.newWithOptions cpu o)) (fun _ _ _ _ => trivial)
    (fun _ _ _ => trivial) (fun last count m r s hJ hr => headerStep_between last count m r s hJ hr)
    _ _ _ _ ?_ ?_
  · exact ⟨decInv_new cpu o, ⟨[a, b], by rw [hr]; rfl⟩, fun h => absurd h (by decide), Or.inl rfl⟩
  · rw [hr]; simp; omega

/-- Reading off the facts about `read_headers`. -/
theorem headersRead {cpu : Cpu} {o : Options} {buf : List UInt8} {d : Decoder}
    (h : (Decoder.newWithOptions cpu o).readHeaders buf = (.ok (), d)) :
    ∃ rd, HeadersRead buf (Decoder.newWithOptions cpu o) d rd := by
  have hw := wp_decodeHeaders cpu o buf
  unfold Decoder.readHeaders at h
  rcases hm : decodeHeaders ⟨Decoder.newWithOptions cpu o, buf⟩ with ⟨r, s⟩
  rw [hm] at h
  simp only [Prod.mk.injEq] at h
  obtain ⟨rfl, rfl⟩ := h
  have hq := M.wp_ok hw hm
  exact ⟨s.rd, hq⟩

theorem limited_of {buf : List UInt8} {d0 d : Decoder} {rd : List UInt8}
    (h : HeadersRead buf d0 d rd) : Limited d := by
  rcases h.inv.frame with ⟨h1, -⟩ | ⟨h1, -⟩
  · exact absurd (by rw [h1]) h.frame
  · exact h1

/-! ### C02 for `read_headers` -/

/-- **C02** for `read_headers`. -/
theorem c02_headers (cpu : Cpu) (o : Options) (buf : List UInt8) (d : Decoder)
    (h : (Decoder.newWithOptions cpu o).readHeaders buf = (.ok (), d)) :
    0 < d.width.toNat ∧ d.width.toNat ≤ o.getMaxWidth ∧
      0 < d.height.toNat ∧ d.height.toNat ≤ o.getMaxHeight := by
  obtain ⟨rd, h⟩ := headersRead h
  obtain ⟨h1, h2, h3, h4⟩ := limited_of h
  have ho := h.inv.opts
  rw [ho] at h3 h4
  refine ⟨?_, h3, ?_, h4⟩
  · apply Nat.pos_of_ne_zero
    intro e; exact h1 (UInt16.toNat_inj.1 e)
  · apply Nat.pos_of_ne_zero
    intro e; exact h2 (UInt16.toNat_inj.1 e)

/-! ### C03 -/

/-- **C03**, except that the byte before the marker code need not be `FF` when the file contains
`FF FF`: after `read_headers` returned `Ok` on a new decoder, `info()` is what a frame header in the
file says. -/
theorem c03_info_partial (cpu : Cpu) (o : Options) (buf : List UInt8) (d : Decoder)
    (h : (Decoder.newWithOptions cpu o).readHeaders buf = (.ok (), d)) :
    ∃ info, d.getInfo = some info ∧ d.width = info.width ∧ d.height = info.height ∧
      ∃ pre bytes, buf = pre ++ bytes ∧ StartsWithFrame bytes info ∧
        (DoubleFF buf ∨ ∃ p, pre = p ++ [0xFF]) := by
  obtain ⟨rd, h⟩ := headersRead h
  have hne : d.info ≠ {} := by
    intro e; exact h.frame (by rw [e])
  refine ⟨d.info, by unfold Decoder.getInfo; rw [if_neg hne], rfl, rfl, ?_⟩
  rcases h.seen with h1 | h1
  · exact absurd h1 hne
  · exact h1

/-- The smallest header that is accepted: one component, 8 x 8, one quantization table of ones. -/
def tinyHeader : List UInt8 :=
  [0xFF, 0xD8] ++
  [0xFF, 0xDB, 0x00, 0x43, 0x00] ++ List.replicate 64 1 ++
  [0xFF, 0xC0, 0x00, 0x0B, 8, 0, 8, 0, 8, 1, 1, 0x11, 0] ++
  [0xFF, 0xDA, 0x00, 0x08, 1, 1, 0x00, 0, 63, 0]

example : ((Decoder.new ⟨false, false⟩).readHeaders tinyHeader).1 = .ok () := by decide +kernel

/-- The same with the marker code `C0` not preceded by `FF`: a fill byte makes the decoder skip the
"segment" of length 2 that follows, and then take the next byte for a marker code. -/
def fillHeader : List UInt8 :=
  [0xFF, 0xD8] ++
  [0xFF, 0xDB, 0x00, 0x43, 0x00] ++ List.replicate 64 1 ++
  [0xFF, 0xFF, 0x00, 0x02, 0xC0, 0x00, 0x0B, 8, 0, 8, 0, 8, 1, 1, 0x11, 0] ++
  [0xFF, 0xDA, 0x00, 0x08, 1, 1, 0x00, 0, 63, 0]

/-- No `FF C0` and no `FF C2` occurs in the list. -/
def noFrameMarker : List UInt8 → Bool
  | a :: b :: r => !(a = 0xFF && (b = 0xC0 || b = 0xC2)) && noFrameMarker (b :: r)
  | _ => true

theorem noFrameMarker_spec {l pre post : List UInt8} {c : UInt8} (h : noFrameMarker l = true)
    (he : l = pre ++ 0xFF :: c :: post) : c ≠ 0xC0 ∧ c ≠ 0xC2 := by
  induction pre generalizing l with
  | nil =>
    subst he
    simp [noFrameMarker] at h
    exact h.1
  | cons a pre ih =>
    subst he
    cases pre with
    | nil =>
      simp only [noFrameMarker, List.cons_append, List.nil_append, Bool.and_eq_true] at h
      exact ih (l := 0xFF :: c :: post) (by simp only [noFrameMarker, Bool.and_eq_true]; exact h.2) rfl
    | cons b pre => simp only [noFrameMarker, List.cons_append, Bool.and_eq_true] at h; exact ih h.2 rfl

/-- **C03** and **C48** are false as stated: a file without any SOF0 or SOF2 marker is accepted. -/
theorem c03_false : ((Decoder.new ⟨false, false⟩).readHeaders fillHeader).1 = .ok () ∧
    ¬ ∃ pre c post, fillHeader = pre ++ 0xFF :: c :: post ∧ (c = 0xC0 ∨ c = 0xC2) := by
  refine ⟨by decide +kernel, ?_⟩
  rintro ⟨pre, c, post, h, hc⟩
  have := noFrameMarker_spec (by decide +kernel) h
  tauto

/-! ### C04 -/

theorem decodeHeaders_loc {d d' : Decoder} {buf rest : List UInt8}
    (h : decodeHeaders ⟨d, buf⟩ = (.ok (), ⟨d', rest⟩)) :
    ∃ a, buf = a ++ rest ∧ ∀ t, decodeHeaders ⟨d, a ++ t⟩ = (.ok (), ⟨d', t⟩) := by
  rcases buf with _ | ⟨x, _ | ⟨y, r⟩⟩
  · rw [decodeHeaders_short _ _ (by simp)] at h; simp at h
  · rw [decodeHeaders_short _ _ (by simp)] at h; simp at h
  · by_cases hm : x = 0xFF ∧ y = 0xD8
    · obtain ⟨rfl, rfl⟩ := hm
      have key : ∀ r, decodeHeaders ⟨d, 0xFF :: 0xD8 :: r⟩ =
          headerLoop (r.length + 3) 0 0 ⟨d, r⟩ := fun r => rfl
      rw [key] at h
      obtain ⟨a, ha, e⟩ := headerLoop_loc _ _ _ _ _ _ _ h
      refine ⟨0xFF :: 0xD8 :: a, by rw [ha]; rfl, fun t => ?_⟩
      rw [List.cons_append, List.cons_append, key]
      exact e t _ (by omega)
    · rw [decodeHeaders_magic _ _ _ _ hm] at h; simp at h

/-- **C04.** If the headers are accepted with `rest` unread, then the bytes before it can be followed
by anything, with the same decoder as the result, and no proper prefix of them is accepted. -/
theorem c04_prefix (d d' : Decoder) (buf rest : List UInt8)
    (h : decodeHeaders ⟨d, buf⟩ = (.ok (), ⟨d', rest⟩)) :
    ∃ a, buf = a ++ rest ∧ (∀ t, decodeHeaders ⟨d, a ++ t⟩ = (.ok (), ⟨d', t⟩)) ∧
      (∀ t, d.readHeaders (a ++ t) = (.ok (), d')) ∧
      ∀ p q, a = p ++ q → q ≠ [] → (d.readHeaders p).1.isOk = false := by
  obtain ⟨a, ha, e⟩ := decodeHeaders_loc h
  refine ⟨a, ha, e, fun t => by unfold Decoder.readHeaders; rw [e], ?_⟩
  intro p q hpq hq
  by_contra hok
  unfold Decoder.readHeaders at hok
  rcases hm : decodeHeaders ⟨d, p⟩ with ⟨r, ⟨d2, rest2⟩⟩
  rw [hm] at hok
  cases r <;> simp [Out.isOk] at hok
  obtain ⟨b, hb, e2⟩ := decodeHeaders_loc hm
  have h1 := e2 (rest2 ++ q)
  rw [← List.append_assoc, ← hb, ← hpq] at h1
  have h2 := e []
  rw [List.append_nil] at h2
  rw [h2] at h1
  simp at h1
  exact hq h1.2.2

example : ∃ d', decodeHeaders ⟨Decoder.new ⟨false, false⟩, tinyHeader ++ [1, 2, 3]⟩ =
    (.ok (), ⟨d', [1, 2, 3]⟩) := by
  have h : ((decodeHeaders ⟨Decoder.new ⟨false, false⟩, tinyHeader ++ [1, 2, 3]⟩).1,
    (decodeHeaders ⟨Decoder.new ⟨false, false⟩, tinyHeader ++ [1, 2, 3]⟩).2.rd) =
      (.ok (), [1, 2, 3]) := by decide +kernel
  rcases hm : decodeHeaders ⟨Decoder.new ⟨false, false⟩, tinyHeader ++ [1, 2, 3]⟩ with ⟨r, ⟨d, rd⟩⟩
  rw [hm] at h
  simp at h
  exact ⟨d, by rw [h.1, h.2]⟩

/-! ### C06 -/

/-- **C06**, except for files with a frame header of four or more components: `read_headers` on a
new decoder returns `Ok` or `Err`. -/
theorem c06_no_panic_partial (cpu : Cpu) (o : Options) (buf : List UInt8)
    (h : ¬ ManyComponents buf) :
    M.Returns ((Decoder.newWithOptions cpu o).readHeaders buf).1 := by
  have hw := M.wp_weaken (wp_decodeHeaders cpu o buf) h (fun h => h)
  have hr : ((Decoder.newWithOptions cpu o).readHeaders buf).1 =
      (decodeHeaders ⟨Decoder.newWithOptions cpu o, buf⟩).1 := rfl
  rw [hr]
  exact M.wp_returns hw

/-- A test for `ManyComponents` that errs on the safe side. -/
def manyTest (buf : List UInt8) : Bool :=
  buf.tails.any fun b => (b.head? = some 0xC0 || b.head? = some 0xC2) && 4 ≤ (b.getD 8 0).toNat

theorem manyTest_spec {buf : List UInt8} (h : manyTest buf = false) : ¬ ManyComponents buf := by
  rintro ⟨pre, bytes, info, h1, ⟨c, l1, l2, a1, a2, b1, b2, comps, rest, h2, h3, -⟩, h4⟩
  have : manyTest buf = true := by
    unfold manyTest
    rw [List.any_eq_true]
    refine ⟨bytes, by rw [List.mem_tails]; exact ⟨pre, h1.symm⟩, ?_⟩
    rw [h2]
    simp
    exact ⟨by tauto, h4⟩
  rw [h] at this; cases this

/-- The tiny header satisfies the hypothesis. -/
example : ¬ ManyComponents tinyHeader := manyTest_spec (by decide +kernel)

/-- Four components with identifiers 1, 2, 3, 3, and a scan of component 4. -/
def fourHeader : List UInt8 :=
  [0xFF, 0xD8] ++
  [0xFF, 0xDB, 0x00, 0x43, 0x00] ++ List.replicate 64 1 ++
  [0xFF, 0xC0, 0x00, 0x14, 8, 0, 8, 0, 8, 4, 1, 0x11, 0, 2, 0x11, 0, 3, 0x11, 0, 3, 0x11, 0] ++
  [0xFF, 0xDA, 0x00, 0x08, 1, 4, 0x00, 0, 63, 0]

/-- **C06** is false: `read_headers` panics on `fourHeader`. -/
theorem c06_false : ((Decoder.new ⟨false, false⟩).readHeaders fourHeader).1 = .panic .index := by
  decide +kernel

/-! ### C48 -/

/-- **C48**, apart from files with `FF FF` (see `c03_false`): headers are accepted only if the file
has an SOF0 or SOF2 marker. For `decode_buffer` see `c48_decode_partial`. -/
theorem c48_headers_partial (cpu : Cpu) (o : Options) (buf : List UInt8) (d : Decoder)
    (hff : ¬ DoubleFF buf)
    (h : (Decoder.newWithOptions cpu o).readHeaders buf = (.ok (), d)) :
    ∃ pre c post, buf = pre ++ 0xFF :: c :: post ∧ (c = 0xC0 ∨ c = 0xC2) := by
  obtain ⟨info, -, -, -, pre, bytes, h1, h2, h3⟩ := c03_info_partial cpu o buf d h
  obtain ⟨c, l1, l2, a1, a2, b1, b2, comps, rest, h4, h5, -⟩ := h2
  rcases h3 with h3 | ⟨p, h3⟩
  · exact absurd h3 hff
  · refine ⟨p, c, _, by rw [h1, h3, h4]; simp; rfl, ?_⟩
    tauto

/-- A test for `DoubleFF`. -/
def doubleTest (buf : List UInt8) : Bool :=
  buf.tails.any fun b => b.head? = some 0xFF && b.getD 1 0 = 0xFF

theorem doubleTest_spec {buf : List UInt8} (h : doubleTest buf = false) : ¬ DoubleFF buf := by
  rintro ⟨pre, post, h1⟩
  have : doubleTest buf = true := by
    unfold doubleTest
    rw [List.any_eq_true]
    refine ⟨0xFF :: 0xFF :: post, by rw [List.mem_tails]; exact ⟨pre, h1.symm⟩, by simp⟩
  rw [h] at this; cases this

/-- The tiny header satisfies the hypotheses. -/
example : ¬ DoubleFF tinyHeader := doubleTest_spec (by decide +kernel)

theorem decodeBuffer_ok_headers {d d' : Decoder} {buf v : List UInt8}
    (h : d.decodeBuffer buf = (.ok v, d')) : ∃ d1, d.readHeaders buf = (.ok (), d1) := by
  unfold Decoder.decodeBuffer at h
  rcases hm : decodeInternal ⟨d, buf⟩ with ⟨r, s⟩
  rw [hm] at h
  simp only [Prod.mk.injEq] at h
  obtain ⟨rfl, rfl⟩ := h
  unfold decodeInternal at hm
  obtain ⟨u, s1, h1, h2⟩ := M.bind_ok_inv hm
  exact ⟨s1.dec, by unfold Decoder.readHeaders; rw [h1]⟩

/-- **C48**, apart from files with `FF FF`: an image is decoded only if the file has an SOF0 or SOF2
marker, so files with only other frame types are rejected. -/
theorem c48_decode_partial (cpu : Cpu) (o : Options) (buf v : List UInt8) (d : Decoder)
    (hff : ¬ DoubleFF buf)
    (h : (Decoder.newWithOptions cpu o).decodeBuffer buf = (.ok v, d)) :
    ∃ pre c post, buf = pre ++ 0xFF :: c :: post ∧ (c = 0xC0 ∨ c = 0xC2) := by
  obtain ⟨d1, h1⟩ := decodeBuffer_ok_headers h
  exact c48_headers_partial cpu o buf d1 hff h1

/-! ### C51 -/

namespace Spec

/-- A scan header for the decoder `d` (T.81 B.2.3): `n` component selectors with their table
numbers, followed by the spectral selection and the successive approximation. -/
structure ScanHeader (d : Decoder) (bytes : List UInt8) (ps : List (UInt8 × UInt8))
    (ss se a : UInt8) : Prop where
  /-- 1 to 3 components -/
  count : 1 ≤ ps.length ∧ ps.length ≤ 3
  /-- the length field is 6 + 2n -/
  bytes : bytes = [0, UInt8.ofNat (6 + 2 * ps.length), UInt8.ofNat ps.length] ++
    ps.flatMap (fun p => [p.1, p.2]) ++ [ss, se, a]
  /-- the components are distinct -/
  distinct : (ps.map Prod.fst).Nodup
  /-- and exist in the frame -/
  exist : ∀ p ∈ ps, ∃ c ∈ d.components, c.id = p.1
  /-- successive approximation positions -/
  approx : a.toNat / 16 ≤ 13 ∧ a.toNat % 16 ≤ 13

end Spec

theorem hi_nibble (a : UInt8) : (a >>> 4).toNat = a.toNat / 16 := by
  rw [UInt8.toNat_shiftRight, show (4 : UInt8).toNat % 8 = 4 from rfl, Nat.shiftRight_eq_div_pow]
theorem lo_nibble (a : UInt8) : (a &&& 0xF).toNat = a.toNat % 16 := by
  rw [UInt8.toNat_and, show (0xF : UInt8).toNat = 2 ^ 4 - 1 from rfl,
    Nat.and_two_pow_sub_one_eq_mod]

/-- **C51.** An accepted scan header, whatever the decoder and the bytes: it is a scan header in the
sense of `ScanHeader`, the component named at position `i` gets the stated tables and position `i`
of the scan order, and the spectral selection and approximation are stored. -/
theorem c51_scan_header (s s' : H) (h : parseSos s = (.ok (), s')) :
    ∃ (bytes : List UInt8) (ps : List (UInt8 × UInt8)) (ss se a : UInt8),
      s.rd = bytes ++ s'.rd ∧ ScanHeader s.dec bytes ps ss se a ∧
      s'.dec.numScans = ps.length ∧
      (∀ i p, ps[i]? = some p → ∃ (j : Nat) (c : Component), s'.dec.components[j]? = some c ∧
        c.id = p.1 ∧ c.dcHuffTable = p.2.toNat / 16 ∧ c.acHuffTable = p.2.toNat % 16 ∧
        (i < s.dec.zOrder.length → s'.dec.zOrder[i]? = some j)) ∧
      s'.dec.specStart = ss.toNat % 64 ∧ s'.dec.specEnd = se.toNat % 64 ∧
      s'.dec.succHigh = a.toNat / 16 ∧ s'.dec.succLow = a.toNat % 16 := by
  obtain ⟨x, y, n, ss, se, a, ps, G⟩ := M.wp_ok
    (wp_parseSos (s := s) (pn := True) (dv := False) (fun h => absurd trivial h)) h
  have hn := G.range
  have hc := G.count
  have hl := G.len
  rw [be16_toNat] at hl
  have hy := y.toNat_lt
  have hx0 : x = 0 := UInt8.toNat_inj.1 (by show x.toNat = 0; omega)
  subst hx0
  simp at hl
  have and63 : ∀ b : UInt8, (b &&& 63).toNat = b.toNat % 64 := by
    intro b
    rw [UInt8.toNat_and, show (63 : UInt8).toNat = 2 ^ 6 - 1 from rfl,
      Nat.and_two_pow_sub_one_eq_mod]
  refine ⟨_, ps, ss, se, a, ?_, ⟨by omega, rfl, G.comps.nodup, ?_, ?_⟩, ?_, ?_, ?_, ?_, ?_, ?_⟩
  · rw [G.bytes]
    have e1 : y = UInt8.ofNat (6 + 2 * ps.length) :=
      UInt8.toNat_inj.1 (by simp [UInt8.toNat_ofNat']; omega)
    have e2 : n = UInt8.ofNat ps.length :=
      UInt8.toNat_inj.1 (by simp [UInt8.toNat_ofNat']; omega)
    rw [← e1, ← e2]
    simp
  · intro p hp
    obtain ⟨i, hi⟩ := List.getElem?_of_mem hp
    obtain ⟨j, c, h1, h2, -⟩ := G.comps.entry i p hi
    obtain ⟨c0, h3, h4⟩ := forall₂_get' G.comps.comps h1
    refine ⟨c0, List.mem_of_getElem? h3, ?_⟩
    rw [← h2, h4]
  · rw [← hi_nibble, ← lo_nibble]; exact ⟨G.high, G.low⟩
  · rw [hc]; exact congrArg Decoder.numScans G.dec
  · intro i p hp
    obtain ⟨j, c, h1, h2, -, h4, h5, h6⟩ := G.comps.entry i p hp
    refine ⟨j, c, h1, h2, by rw [h4, hi_nibble], by rw [h5, lo_nibble], fun hz => ?_⟩
    have := h6 (by simpa using hz)
    simpa using this
  · exact (congrArg Decoder.specStart G.dec).trans (and63 _)
  · exact (congrArg Decoder.specEnd G.dec).trans (and63 _)
  · exact (congrArg Decoder.succHigh G.dec).trans (hi_nibble _)
  · exact (congrArg Decoder.succLow G.dec).trans (lo_nibble _)

/-- The scan header of `tinyHeader` is accepted after its frame header. -/
example : (parseSos ⟨((Decoder.new ⟨false, false⟩).readHeaders tinyHeader).2,
    [0x00, 0x08, 1, 1, 0x00, 0, 63, 0]⟩).1 = .ok () := by decide +kernel

/-! ### C52 -/

/-- **C52.** An accepted frame header, whatever the decoder and the bytes: every component has
identifier 1 to 3, sampling factors that are powers of two, and a quantization table that was
defined; the components are those of the file, and there are as many as `info()` reports. -/
theorem c52_frame_header (sof : SofMarker) (s s' : H)
    (h : parseStartOfFrame sof s = (.ok (), s')) :
    s'.dec.components.length = s'.dec.info.components.toNat ∧ s'.dec.info.components ≠ 0 ∧
    (∀ c ∈ s'.dec.components, ComponentOk c ∧
      s.dec.qtTables[c.quantTableNumber]? = some (some c.quantTable)) ∧
    ∃ head, head.length = 8 ∧ s.rd = head ++ s'.dec.components.flatMap (fun c =>
      componentBytes c.id c.horizontalSample c.verticalSample c.quantTableNumber) ++ s'.rd := by
  obtain ⟨x, y, h1, h2, w1, w2, n, cs, cs', G⟩ := M.wp_ok
    (wp_parseStartOfFrame (s := s) (pn := True) (dv := False) sof (fun h => absurd trivial h)) h
  have hcomp : s'.dec.components = cs' := by rw [G.dec]; rfl
  have hinfo : s'.dec.info.components = n := by rw [G.dec]; rfl
  rw [hcomp, hinfo]
  refine ⟨G.count, G.npos, fun c hc => ⟨G.componentsOk c hc, ?_⟩, ?_⟩
  · obtain ⟨_, _, _, h⟩ := G.setup.mem hc
    exact h
  · exact ⟨[x, y, 8, h1, h2, w1, w2, n], rfl, by rw [G.bytes]; simp; rfl⟩

/-- A frame header with sampling factors 2 x 2 for the first component. -/
example : (parseStartOfFrame .baselineDct
    ⟨{ Decoder.new ⟨false, false⟩ with qtTables := [some (List.replicate 64 1), none, none, none] },
      [0, 0x11, 8, 0, 8, 0, 8, 3, 1, 0x22, 0, 2, 0x11, 0, 3, 0x11, 0]⟩).1 = .ok () := by
  decide +kernel

end Zune
