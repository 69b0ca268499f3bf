import Verif.Model.Headers
import Verif.Lemmas.Wp
import Verif.Lemmas.Huffman
import Mathlib.Tactic.Tauto
/-! What a header parser that succeeded has seen and done. -/

namespace Zune
open M (wp wp_bind wp_mono wp_pure wp_throw wp_idx wp_idx_of wp_okOr wp_ofOut wp_failIf wp_ite_of
  wp_diverge wp_panic)

section
variable {pn dv : Prop} {E : DecodeErr → H → Prop} {s : H} {α : Type}

theorem wp_getDec {Q : Decoder → H → Prop} : wp pn dv getDec Q E s ↔ Q s.dec s := Iff.rfl
theorem wp_modDec {f : Decoder → Decoder} {Q : Unit → H → Prop} :
    wp pn dv (modDec f) Q E s ↔ Q () ⟨f s.dec, s.rd⟩ := Iff.rfl
theorem wp_readByte {Q : UInt8 → H → Prop} (hQ : ∀ b r, s.rd = b :: r → Q b ⟨s.dec, r⟩)
    (hE : s.rd = [] → E .format s) : wp pn dv readByte Q E s := by
  obtain ⟨d, rd⟩ := s
  cases rd with
  | nil => exact hE rfl
  | cons b r => exact hQ b r rfl
theorem wp_readU16 {e : DecodeErr} {Q : UInt16 → H → Prop}
    (hQ : ∀ a b r, s.rd = a :: b :: r → Q (a.toUInt16 <<< 8 ||| b.toUInt16) ⟨s.dec, r⟩)
    (hE : s.rd.length < 2 → E e ⟨s.dec, []⟩) : wp pn dv (readU16 e) Q E s := by
  obtain ⟨d, rd⟩ := s
  rcases rd with _ | ⟨a, _ | ⟨b, r⟩⟩
  · exact hE (by simp)
  · exact hE (by simp)
  · exact hQ a b r rfl
theorem wp_readExact {n : Nat} {e : DecodeErr} {Q : List UInt8 → H → Prop}
    (hQ : ∀ a r, s.rd = a ++ r → a.length = n → Q a ⟨s.dec, r⟩)
    (hE : s.rd.length < n → E e ⟨s.dec, []⟩) : wp pn dv (readExact n e) Q E s := by
  unfold wp readExact
  by_cases h : s.rd.length < n
  · simp only [if_pos h]; exact hE h
  · simp only [if_neg h]
    exact hQ _ _ (List.take_append_drop n s.rd).symm (by simp; omega)

/-- Two bytes, most significant first. -/
theorem u16_toNat (a b : UInt8) : (a.toUInt16 <<< 8 ||| b.toUInt16).toNat = a.toNat * 256 + b.toNat := by
  have ha := a.toNat_lt
  have hb := b.toNat_lt
  simp only [UInt16.toNat_or, UInt16.toNat_shiftLeft, UInt8.toNat_toUInt16]
  rw [show (8 : UInt16).toNat % 16 = 8 from rfl, Nat.shiftLeft_eq]
  rw [Nat.mod_eq_of_lt (by omega)]
  rw [show a.toNat * 2 ^ 8 = 2 ^ 8 * a.toNat by ring]
  rw [← Nat.two_pow_add_eq_or_of_lt (by omega)]
  ring

/-- `u16::from_be_bytes` -/
def be16 (a b : UInt8) : UInt16 := a.toUInt16 <<< 8 ||| b.toUInt16

/-! ### Quantization tables -/

theorem wp_parseDqtLoop : ∀ (fuel len : Nat) (s : H), len ≤ fuel →
    wp pn dv (parseDqtLoop fuel len) (fun _ s' =>
      (∃ a, s.rd = a ++ s'.rd ∧ a.length = len) ∧
      s'.dec = { s.dec with qtTables := s'.dec.qtTables } ∧
      s'.dec.qtTables.length = s.dec.qtTables.length)
      (fun _ s' => s'.dec = { s.dec with qtTables := s'.dec.qtTables }) s
  | 0, len, s, hl => by
    unfold parseDqtLoop
    rw [if_neg (by omega)]
    exact ⟨⟨[], rfl, by simp; omega⟩, rfl, rfl⟩
  | fuel + 1, len, s, hl => by
    unfold parseDqtLoop
    refine wp_ite_of (fun hpos => ?_) fun h => ⟨⟨[], rfl, by simp; omega⟩, rfl, rfl⟩
    rw [wp_bind]
    refine wp_readByte (fun b r hr => ?_) (fun _ => rfl)
    dsimp only
    refine wp_ite_of (fun _ => rfl) fun hsz => ?_
    refine wp_ite_of (fun hp => ?_) fun _ => rfl
    rw [wp_bind]
    refine wp_readExact (fun a r' hr' ha => ?_) (fun _ => rfl)
    refine wp_ite_of (fun _ => rfl) fun hpos' => ?_
    rw [wp_bind, wp_modDec]
    refine wp_mono (wp_parseDqtLoop fuel _ _ (by omega)) ?_ ?_
    · rintro _ s' ⟨⟨a', ha', hla⟩, he, hq'⟩
      refine ⟨⟨b :: a ++ a', ?_, ?_⟩, ?_, by simpa using hq'⟩
      · dsimp only at ha' hr'; rw [hr, hr', ha']; simp
      · rw [hp] at hsz hla; simp only [List.length_append, List.length_cons]; omega
      · rw [he]
    · rintro _ s' he
      rw [he]

theorem wp_parseDqt :
    wp pn dv parseDqt (fun _ s' =>
      (∃ x y a, s.rd = x :: y :: (a ++ s'.rd) ∧ a.length + 2 = (be16 x y).toNat) ∧
      s'.dec = { s.dec with qtTables := s'.dec.qtTables } ∧
      s'.dec.qtTables.length = s.dec.qtTables.length)
      (fun _ s' => s'.dec = { s.dec with qtTables := s'.dec.qtTables }) s := by
  unfold parseDqt
  rw [wp_bind]
  refine wp_readU16 (fun x y r hr => ?_) (fun _ => rfl)
  refine wp_ite_of (fun _ => rfl) fun hl => ?_
  rw [← be16] at *
  have hl' : 2 ≤ (be16 x y).toNat := by
    have : ¬ (be16 x y).toNat < 2 := hl
    omega
  refine wp_mono (wp_parseDqtLoop _ _ _ (by omega)) ?_ ?_
  · rintro _ s' ⟨⟨a', ha', hla⟩, he, hq'⟩
    exact ⟨⟨x, y, a', by rw [hr]; dsimp only at ha'; rw [ha'], by omega⟩, he, hq'⟩
  · rintro _ s' he
    exact he

/-! ### Huffman tables -/

/-- All tables come from DHT segments. -/
structure TablesOk (d : Decoder) : Prop where
  dcLen : d.dcTables.length = 4
  acLen : d.acTables.length = 4
  dc : ∀ t, some t ∈ d.dcTables → ∃ counts values prog, Accepted counts values true prog t
  ac : ∀ t, some t ∈ d.acTables → ∃ counts values prog, Accepted counts values false prog t

theorem tablesOk_new (cpu : Cpu) (o : Options) : TablesOk (Decoder.newWithOptions cpu o) := by
  constructor <;> simp [Decoder.newWithOptions]

theorem mem_set {α : Type} {l : List α} {i : Nat} {a b : α} (h : b ∈ l.set i a) : b = a ∨ b ∈ l := by
  rcases List.mem_or_eq_of_mem_set h with h | h
  · exact Or.inr h
  · exact Or.inl h

theorem wp_parseHuffmanLoop : ∀ (fuel len : Nat) (s : H), len ≤ fuel →
    wp pn dv (parseHuffmanLoop fuel len) (fun left s' =>
      (∃ a, s.rd = a ++ s'.rd ∧ a.length + left = len) ∧
      s'.dec = { s.dec with dcTables := s'.dec.dcTables, acTables := s'.dec.acTables } ∧
      (TablesOk s.dec → TablesOk s'.dec))
      (fun _ s' =>
        s'.dec = { s.dec with dcTables := s'.dec.dcTables, acTables := s'.dec.acTables }) s
  | 0, len, s, hl => by
    unfold parseHuffmanLoop
    rw [if_neg (by omega)]
    exact ⟨⟨[], rfl, by simp⟩, rfl, id⟩
  | fuel + 1, len, s, hl => by
    unfold parseHuffmanLoop
    refine wp_ite_of (fun hpos => ?_) fun h => ⟨⟨[], rfl, by simp⟩, rfl, id⟩
    rw [wp_bind]
    refine wp_readByte (fun b r hr => ?_) (fun _ => rfl)
    dsimp only
    refine wp_ite_of (fun _ => rfl) fun hidx => ?_
    refine wp_ite_of (fun _ => rfl) fun hcls => ?_
    rw [wp_bind]
    refine wp_readExact (fun c r' hr' hc => ?_) (fun _ => rfl)
    refine wp_ite_of (fun _ => rfl) fun h256 => ?_
    refine wp_ite_of (fun _ => rfl) fun hsum => ?_
    rw [wp_bind]
    refine wp_readExact (fun v r'' hr'' hv => ?_) (fun _ => rfl)
    rw [wp_bind, wp_getDec, wp_bind, wp_okOr]
    refine ⟨fun t htab => ?_, fun _ => rfl⟩
    rw [wp_bind, wp_modDec]
    dsimp only at *
    have hacc : Accepted (c.map (·.toNat)) (padTo256 (v.map (·.toNat)))
        (decide ((b >>> 4).toNat = 0)) s.dec.isProgressive t := by
      refine ⟨by simp [hc], ?_, ?_, ?_, htab⟩
      · simp at h256; exact h256
      · simp [padTo256] at *; omega
      · intro x hx
        simp only [padTo256, List.mem_append, List.mem_map, List.mem_replicate] at hx
        rcases hx with ⟨y, -, rfl⟩ | ⟨-, rfl⟩
        · exact y.toNat_lt
        · omega
    have hd : ∀ D : Decoder, D = (if (b >>> 4).toNat = 0 then
          { s.dec with dcTables := s.dec.dcTables.set (b &&& 0xF).toNat (some t) }
        else { s.dec with acTables := s.dec.acTables.set (b &&& 0xF).toNat (some t) }) →
        (TablesOk s.dec → TablesOk D) ∧ D = { s.dec with dcTables := D.dcTables, acTables := D.acTables } := by
      intro D hD
      by_cases h0 : (b >>> 4).toNat = 0
      · rw [if_pos h0] at hD
        subst hD
        refine ⟨fun ht => ⟨by simp [ht.dcLen], ht.acLen, ?_, ht.ac⟩, rfl⟩
        intro t' h'
        rcases mem_set h' with h' | h'
        · cases h'; exact ⟨_, _, _, decide_eq_true h0 ▸ hacc⟩
        · exact ht.dc _ h'
      · rw [if_neg h0] at hD
        subst hD
        refine ⟨fun ht => ⟨ht.dcLen, by simp [ht.acLen], ht.dc, ?_⟩, rfl⟩
        intro t' h'
        rcases mem_set h' with h' | h'
        · cases h'; exact ⟨_, _, _, decide_eq_false h0 ▸ hacc⟩
        · exact ht.ac _ h'
    obtain ⟨h1, h2⟩ := hd _ rfl
    refine wp_mono (wp_parseHuffmanLoop fuel _ _ (by omega)) ?_ ?_
    · rintro left s' ⟨⟨a', ha', hla⟩, he, hq'⟩
      refine ⟨⟨b :: c ++ v ++ a', ?_, ?_⟩, ?_, fun ht => hq' (h1 ht)⟩
      · dsimp only at ha'; rw [hr, hr', hr'', ha']; simp
      · simp [hc, hv] at *; omega
      · rw [he, h2]
    · rintro _ s' he
      rw [he, h2]

theorem wp_parseHuffman :
    wp pn dv parseHuffman (fun _ s' =>
      (∃ x y a, s.rd = x :: y :: (a ++ s'.rd) ∧ a.length + 2 = (be16 x y).toNat) ∧
      s'.dec = { s.dec with dcTables := s'.dec.dcTables, acTables := s'.dec.acTables } ∧
      (TablesOk s.dec → TablesOk s'.dec))
      (fun _ s' =>
        s'.dec = { s.dec with dcTables := s'.dec.dcTables, acTables := s'.dec.acTables }) s := by
  unfold parseHuffman
  rw [wp_bind]
  refine wp_readU16 (fun x y r hr => ?_) (fun _ => rfl)
  refine wp_ite_of (fun _ => rfl) fun hl => ?_
  rw [← be16] at *
  have hl' : 2 ≤ (be16 x y).toNat := by
    have : ¬ (be16 x y).toNat < 2 := hl
    omega
  rw [wp_bind]
  refine wp_mono (wp_parseHuffmanLoop _ _ _ (by omega)) ?_ (fun _ _ h => h)
  rintro left s' ⟨⟨a', ha', hla⟩, he, hq'⟩
  rw [wp_failIf]
  refine ⟨fun h0 => ⟨⟨x, y, a', by rw [hr]; dsimp only at ha'; rw [ha'], ?_⟩, he, hq'⟩, fun _ => he⟩
  simp at h0
  omega

end

end Zune
