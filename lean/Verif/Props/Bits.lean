import Verif.Lemmas.Refill
import Verif.Lemmas.Extend
/-!
# Properties C15, C16, C17 and C21: the bit reader

The specification of the byte stream is `Spec.scan` (data bytes and the marker that ends them);
the specification of the reader is a list of bits that gets shorter.
-/

namespace Zune
open Spec

/-! ## C15 -/

/-- The operations that the block decoders use on the bit reader. -/
inductive ROp where
  | refill
  | refillIfBelow (n : Nat)
  | peek (n : Nat)
  | drop (n : Nat)
  | getBits (n : Nat)
  | getBit

/-- What an operation shows to its caller. -/
inductive Obs where
  | unit
  | num (v : Nat)
  deriving DecidableEq

/-- An operation of the model. -/
def ROp.run : ROp → M B Obs
  | .refill => do Zune.refill; pure .unit
  | .refillIfBelow n => do Zune.refillIfBelow n; pure .unit
  | .peek n => fun s => (.ok (.num (s.bs.peek n)), s)
  | .drop n => fun s => (.ok .unit, { s with bs := s.bs.drop n })
  | .getBits n => do let v ← getBitsM n; pure (.num v.toNat)
  | .getBit => do let b ← getBitM; pure (.num b.toNat)

/-- The number of bits an operation looks at. -/
def ROp.need : ROp → Nat
  | .peek n | .drop n | .getBits n => n
  | .getBit => 1
  | _ => 0

/-- The number of bits an operation removes. -/
def ROp.used : ROp → Nat
  | .peek _ => 0
  | op => op.need

/-- The same operation on a list of bits: the observation and the remaining bits. -/
def ROp.spec : ROp → List Bool → Obs × List Bool
  | .refill, bits | .refillIfBelow _, bits => (.unit, bits)
  | .peek n, bits => (.num (bitsNat (bits.take n)), bits)
  | .drop n, bits => (.unit, bits.drop n)
  | .getBits n, bits => (.num (bitsNat (bits.take n)), bits.drop n)
  | .getBit, bits => (.num (bitsNat (bits.take 1)), bits.drop 1)

/-- Run a sequence of operations. -/
def runOps : List ROp → M B (List Obs)
  | [] => pure []
  | op :: ops => do
    let o ← op.run
    let os ← runOps ops
    pure (o :: os)

/-- A sequence of operations on a list of bits. -/
def specOps : List ROp → List Bool → List Obs × List Bool
  | [], bits => ([], bits)
  | op :: ops, bits =>
    ((op.spec bits).1 :: (specOps ops (op.spec bits).2).1, (specOps ops (op.spec bits).2).2)

/-- The caller looks at buffered bits only (`n ≤ bits_left`), reads less than 32 bits at once,
and does not go past the end of the data; the last argument is the number of data bits left. -/
def Disciplined : List ROp → B → Nat → Prop
  | [], _, _ => True
  | op :: ops, s, n =>
    op.need ≤ s.bs.bitsLeft ∧ op.need < 32 ∧ op.need ≤ n ∧
    Disciplined ops (op.run s).2 (n - op.used)

/-- **C15.** Whatever the order of refills, peeks and reads, the reader shows the bits of the
unstuffed data bytes in order. `bytes` are the bytes from the start of the entropy coded segment;
the marker that ends the data, if there is one, must be known to the library (otherwise a refill
fails, see `c21_marker`). -/
theorem c15_reader (bytes : List UInt8) (bs : BitStream) (hb : bs.bitsLeft = 0)
    (hm : bs.marker = none)
    (hk : ∀ m r, scanEnd bytes = some (m, r) → (Marker.fromU8 m).isSome) (ops : List ROp)
    (hd : Disciplined ops { bs := bs, rd := bytes } (bytesBits (scanData bytes)).length) :
    (runOps ops { bs := bs, rd := bytes }).1 =
      .ok (specOps ops (bytesBits (scanData bytes))).1 := by
  have key : ∀ ops s bits tail, Rep s bits tail → Disciplined ops s bits.length →
      (runOps ops s).1 = .ok (specOps ops bits).1 := by
    intro ops
    induction ops with
    | nil => intros; rfl
    | cons op ops ih =>
      intro s bits tail hr hd
      obtain ⟨d1, d2, d3, d4⟩ := hd
      have step : ∀ o s' bits', op.run s = (.ok o, s') → Rep s' bits' tail →
          op.spec bits = (o, bits') →
          bits'.length = (bits.length - op.used) →
          (runOps (op :: ops) s).1 = .ok (specOps (op :: ops) bits).1 := by
        intro o s' bits' h1 h2 h3 h4
        rw [h1, ← h4] at d4
        have := ih s' bits' tail h2 d4
        rcases hrun : runOps ops s' with ⟨r, s''⟩
        rw [hrun] at this
        simp only at this
        subst this
        simp only [runOps]
        rw [M.bind_ok h1, M.bind_ok hrun]
        simp [specOps, h3]
      have hsplit : ∀ n, n ≤ bits.length → bits.take n ++ bits.drop n = bits := fun n _ =>
        List.take_append_drop n bits
      cases op with
      | refill =>
        obtain ⟨s', r1, r2, -⟩ := hr.refill
        exact step .unit s' bits (by simp only [ROp.run]; rw [M.bind_ok r1]; rfl) r2 rfl
          (by simp [ROp.used, ROp.need])
      | refillIfBelow n =>
        unfold ROp.run at step
        simp only at step
        by_cases hl : s.bs.bitsLeft < n
        · obtain ⟨s', r1, r2, -⟩ := hr.refill
          have : Zune.refillIfBelow n s = (.ok (), s') := by rw [Zune.refillIfBelow, if_pos hl, r1]
          exact step .unit s' bits (by rw [M.bind_ok this]; rfl) r2 rfl (by simp [ROp.used, ROp.need])
        · have : Zune.refillIfBelow n s = (.ok (), s) := by rw [Zune.refillIfBelow, if_neg hl]
          exact step .unit s bits (by rw [M.bind_ok this]; rfl) hr rfl (by simp [ROp.used, ROp.need])
      | peek n =>
        simp only [ROp.need] at d1 d2 d3
        have hl : (bits.take n).length = n := by simp; omega
        have hr' : Rep s (bits.take n ++ bits.drop n) tail := by rw [hsplit n d3]; exact hr
        have hp := hr'.peek_prefix (by omega)
        refine step (.num (s.bs.peek n)) s bits rfl hr ?_ (by simp [ROp.used])
        simp only [ROp.spec]
        rw [List.prefix_iff_eq_take, hl, natBits_take (by omega)] at hp
        rw [hp, bitsNat_natBits, peek_eq _ _ (by omega), Nat.mod_eq_of_lt]
        rw [Nat.div_lt_iff_lt_mul (by positivity), ← Nat.pow_add]
        have := s.bs.aligned.isLt
        convert this using 2; omega
      | drop n =>
        simp only [ROp.need] at d1 d2 d3
        have hl : (bits.take n).length = n := by simp; omega
        have hr' : Rep s (bits.take n ++ bits.drop n) tail := by rw [hsplit n d3]; exact hr
        have h2 := hr'.drop (by omega)
        rw [hl] at h2
        exact step .unit _ _ rfl h2 rfl (by simp [ROp.used, ROp.need])
      | getBits n =>
        simp only [ROp.need] at d1 d2 d3
        have hl : (bits.take n).length = n := by simp; omega
        have hr' : Rep s (bits.take n ++ bits.drop n) tail := by rw [hsplit n d3]; exact hr
        obtain ⟨s', r1, r2, -⟩ := hr'.getBits (by omega) (by omega)
        rw [hl] at r1
        refine step (.num (bitsNat (bits.take n))) s' _ ?_ r2 rfl (by simp [ROp.used, ROp.need])
        simp only [ROp.run]
        rw [M.bind_ok r1]
        have hlt := bitsNat_lt (bits.take n)
        rw [hl] at hlt
        have : 2 ^ n ≤ 2 ^ 31 := Nat.pow_le_pow_right (by norm_num) (by omega)
        simp only [M.pure_apply, BitVec.toNat_ofNat, Prod.mk.injEq, Out.ok.injEq, Obs.num.injEq,
          and_true]
        omega
      | getBit =>
        simp only [ROp.need] at d1 d2 d3
        obtain ⟨b, rest, rfl⟩ : ∃ b rest, bits = b :: rest := by
          cases bits with
          | nil => simp at d3
          | cons b rest => exact ⟨b, rest, rfl⟩
        obtain ⟨s', r1, r2, -⟩ := hr.getBit d1
        refine step (.num b.toNat) s' rest ?_ r2 ?_ (by simp [ROp.used, ROp.need])
        · simp only [ROp.run]; rw [M.bind_ok r1]; rfl
        · simp [ROp.spec, bitsNat]
  exact key ops _ _ _ (rep_new bytes bs hb hm hk) hd

/-- Reads with at least one refill before each of them. -/
def refilledReads : List (Nat × Nat) → List ROp
  | [] => []
  | (k, n) :: rs => List.replicate (k + 1) .refill ++ .getBits n :: refilledReads rs

/-- **C15**, unconditional form: reads of fewer than 32 bits, each preceded by at least one refill,
cut the data bits into consecutive pieces, however many refills there are. -/
theorem c15_refilled_reads (bytes : List UInt8) (bs : BitStream) (hb : bs.bitsLeft = 0)
    (hm : bs.marker = none)
    (hk : ∀ m r, scanEnd bytes = some (m, r) → (Marker.fromU8 m).isSome)
    (reads : List (Nat × Nat)) (hn : ∀ r ∈ reads, r.2 < 32)
    (hlen : (reads.map Prod.snd).sum ≤ (bytesBits (scanData bytes)).length) :
    (runOps (refilledReads reads) { bs := bs, rd := bytes }).1 =
      .ok (specOps (refilledReads reads) (bytesBits (scanData bytes))).1 := by
  apply c15_reader bytes bs hb hm hk
  have key : ∀ reads s bits tail, Rep s bits tail → (∀ r ∈ reads, r.2 < 32) →
      (reads.map Prod.snd).sum ≤ bits.length →
      Disciplined (refilledReads reads) s bits.length := by
    intro reads
    induction reads with
    | nil => intros; trivial
    | cons r reads ih =>
      obtain ⟨k, n⟩ := r
      intro s bits tail hr hn hlen
      simp only [List.map_cons, List.sum_cons] at hlen
      have hn32 : n < 32 := hn (k, n) (by simp)
      have refills : ∀ k s, Rep s bits tail →
          (0 < k ∨ (32 ≤ s.bs.bitsLeft ∨ bits.length ≤ s.bs.bitsLeft)) →
          Disciplined (List.replicate k .refill ++ .getBits n :: refilledReads reads) s
            bits.length := by
        intro k
        induction k with
        | zero =>
          intro s hr hav
          have hnb : n ≤ s.bs.bitsLeft := by omega
          have hl : (bits.take n).length = n := by simp; omega
          have hr' : Rep s (bits.take n ++ bits.drop n) tail := by
            rw [List.take_append_drop]; exact hr
          obtain ⟨s', r1, r2, -⟩ := hr'.getBits (by omega) (by omega)
          rw [hl] at r1
          refine ⟨hnb, hn32, by show n ≤ _; omega, ?_⟩
          have : (ROp.run (.getBits n) s).2 = s' := by
            simp only [ROp.run]; rw [M.bind_ok r1]; rfl
          rw [this]
          have := ih s' (bits.drop n) tail r2 (fun r hr => hn r (by simp [hr])) (by simp; omega)
          simpa [ROp.used, ROp.need] using this
        | succ k ih2 =>
          intro s hr _
          obtain ⟨s', r1, r2, r3, -⟩ := hr.refill
          refine ⟨Nat.zero_le _, by simp [ROp.need], Nat.zero_le _, ?_⟩
          have : (ROp.run .refill s).2 = s' := by
            simp only [ROp.run]; rw [M.bind_ok r1]; rfl
          rw [this]
          exact ih2 s' r2 (Or.inr r3)
      exact refills (k + 1) s hr (Or.inl (by omega))
  exact key reads _ _ _ (rep_new bytes bs hb hm hk) hn hlen

/-- A stream with a stuffed byte that ends with EOI, read in pieces of 12, 3 and 9 bits. -/
example : (runOps (refilledReads [(0, 12), (2, 3), (0, 9)])
    { bs := BitStream.new, rd := [0xAB, 0xFF, 0x00, 0xC1, 0xFF, 0xD9] }).1 =
    .ok [.unit, .num 0xABF, .unit, .unit, .unit, .num 7, .unit, .num 0x1C1] := by
  decide +kernel

/-! ## C16 -/

/-- **C16.** The word test of the fast refill finds a byte `FF` exactly when there is one; when
there is none, the fast refill does what four single byte refills do. -/
theorem c16_fast_refill (a b c d : UInt8) :
    (hasByte (be32 a b c d) 255 = true ↔ 0xFF ∈ [a, b, c, d]) ∧
    (0xFF ∉ [a, b, c, d] → ∀ (bs : BitStream) (r : List UInt8),
      refillBytes 4 { bs := bs, rd := a :: b :: c :: d :: r } =
        (.ok (), { bs := fastAppend bs (be32 a b c d), rd := r })) := by
  constructor
  · rw [hasByte_ff]; simp [eq_comm]
  · intro h bs r
    simp only [List.mem_cons, List.not_mem_nil, or_false, not_or] at h
    exact fast_eq_slow bs a b c d r (Ne.symm h.1) (Ne.symm h.2.1) (Ne.symm h.2.2.1)
      (Ne.symm h.2.2.2)

/-- Every refill of a reader with at most 32 buffered bits and no pending marker has the effect of
four single byte refills, whichever path is taken. -/
theorem c16_refill_is_bytewise (s : B) (h : s.bs.bitsLeft ≤ 32) (hm : s.bs.marker = none) :
    refill s = refillBytes 4 s := refill_slow s h hm

example : hasByte (be32 0x12 0x80 0xFF 0x00) 255 = true ∧ hasByte (be32 0x12 0x80 0xFE 0x00) 255 = false := by
  decide

/-! ## C17 -/

/-- **C17.** Extension of magnitude bits: for every size from 1 to 15 and every value of that many
bits the result is the number of T.81 table F.1 with these additional bits. -/
theorem c17_extend (s v : Nat) (h1 : 1 ≤ s) (h2 : s ≤ 15) (hv : v < 2 ^ s) :
    (huffExtend (BitVec.ofNat 32 v) s).toInt = if 2 ^ (s - 1) ≤ v then (v : Int) else v - 2 ^ s + 1 := by
  rw [huffExtend_toInt s v h1 h2 hv, extend]
  by_cases h : v < 2 ^ (s - 1)
  · rw [if_pos h, if_neg (by omega)]
  · rw [if_neg h, if_pos (by omega)]

/-- **C17.** The values decoded from `s` bits are exactly those of magnitude category `s`, each
from exactly one bit pattern. -/
theorem c17_bijection (s : Nat) (h1 : 1 ≤ s) (h2 : s ≤ 15) (d : Int) :
    (2 ^ (s - 1) ≤ d.natAbs ∧ d.natAbs < 2 ^ s) ↔
      ∃ v, (v < 2 ^ s ∧ (huffExtend (BitVec.ofNat 32 v) s).toInt = d) ∧
        ∀ u, u < 2 ^ s → (huffExtend (BitVec.ofNat 32 u) s).toInt = d → u = v := by
  constructor
  · intro hd
    obtain ⟨a, b⟩ := extend_additional s d h1 hd
    refine ⟨additional s d, ⟨a, by rw [huffExtend_toInt s _ h1 h2 a, b]⟩, ?_⟩
    intro u hu he
    rw [huffExtend_toInt s u h1 h2 hu] at he
    rw [← (extend_inCategory s u h1 hu).2, he]
  · rintro ⟨v, ⟨hv, he⟩, -⟩
    rw [huffExtend_toInt s v h1 h2 hv] at he
    rw [← he]
    exact (extend_inCategory s v h1 hv).1

example : (huffExtend (BitVec.ofNat 32 0b0101) 4).toInt = -10 := by decide

/-! ## C21 -/

theorem refillBytes_marker (n : Nat) (s : B) (hm : s.bs.marker = none) (m : UInt8)
    (rest : List UInt8) (he : scanEnd s.rd = some (m, rest)) (hn : (scanData s.rd).length < n)
    (hle : s.bs.bitsLeft + 8 * n ≤ 64) :
    ∃ s', refillBytes n s = (if (Marker.fromU8 m).isSome then .ok () else .err .format, s') ∧
      s'.rd = rest ∧ s'.bs.marker = Marker.fromU8 m ∧
      s'.bs.bitsLeft = s.bs.bitsLeft + 8 * (scanData s.rd).length ∧
      natBits s'.bs.bitsLeft s'.bs.buffer.toNat =
        natBits s.bs.bitsLeft s.bs.buffer.toNat ++ bytesBits (scanData s.rd) ∧
      s'.avail = natBits s.bs.bitsLeft s.bs.buffer.toNat ++ bytesBits (scanData s.rd) := by
  induction n generalizing s with
  | zero => omega
  | succ n ih =>
    rcases refillByte_spec s with ⟨byte, rd', e, hs⟩ | ⟨m', rd', hs, hm0, hmF, e⟩
    · simp only [refillBytes, e]
      rcases hs with hs | ⟨hs, -⟩
      · have hd : scanData s.rd = byte :: scanData rd' := by simp [scanData, hs]
        have he' : scanEnd rd' = some (m, rest) := by rw [← he]; simp [scanEnd, hs]
        rw [hd] at hn
        obtain ⟨s', r1, r2, r3, r4, r5, r6⟩ := ih
          { bs := { s.bs with
              buffer := (s.bs.buffer <<< 8) ||| (byte.toBitVec.setWidth 64),
              bitsLeft := s.bs.bitsLeft + 8 }, rd := rd' } hm he'
          (by simpa using hn) (by simp only; omega)
        simp only at r1 r2 r3 r4 r5 r6
        rw [natBits_append_byte _ _ _ (by omega)] at r5 r6
        refine ⟨s', r1, r2, r3, by rw [r4, hd]; simp; omega, ?_, ?_⟩
        · rw [r5, hd]; simp [bytesBits]
        · rw [r6, hd]; simp [bytesBits]
      · rw [scanEnd, hs] at he; simp at he
    · have he' : (m', rd') = (m, rest) := by
        rw [scanEnd, hs] at he; exact Option.some.inj he
      obtain ⟨rfl, rfl⟩ := Prod.mk.inj he'
      have hd : scanData s.rd = [] := by simp [scanData, hs]
      have hbuf : natBits s.bs.bitsLeft (((s.bs.buffer <<< 8) |||
          ((0xFF : UInt8).toBitVec.setWidth 64)) >>> 8).toNat =
          natBits s.bs.bitsLeft s.bs.buffer.toNat := by
        have := natBits_append_byte s.bs.buffer 0xFF s.bs.bitsLeft (by omega)
        rw [natBits_add] at this
        have := (List.append_inj this (by simp)).1
        rw [BitVec.toNat_ushiftRight, Nat.shiftRight_eq_div_pow]
        exact this
      have hav : (natBits 64 (if s.bs.bitsLeft ≠ 0 then
          shl64 (((s.bs.buffer <<< 8) ||| ((0xFF : UInt8).toBitVec.setWidth 64)) >>> 8)
            (64 - s.bs.bitsLeft) else s.bs.aligned).toNat).take s.bs.bitsLeft =
          natBits s.bs.bitsLeft s.bs.buffer.toNat := by
        by_cases h0 : s.bs.bitsLeft = 0
        · simp [h0, natBits]
        · rw [if_pos h0, avail_shl _ _ (by omega), hbuf]
      simp only [refillBytes, e]
      cases hk : Marker.fromU8 m' with
      | none =>
        refine ⟨_, rfl, rfl, hm, by simp [hd], ?_, ?_⟩
        · simp only [hd, bytesBits, List.flatMap_nil, List.append_nil]; exact hbuf
        · simp only [hd, bytesBits, List.flatMap_nil, List.append_nil]; exact hav
      | some k =>
        refine ⟨_, rfl, rfl, rfl, by simp [hd], ?_, ?_⟩
        · simp only [hd, bytesBits, List.flatMap_nil, List.append_nil]; exact hbuf
        · simp only [hd, bytesBits, List.flatMap_nil, List.append_nil]; exact hav

/-- **C21.** A refill that reaches a marker within the next four data bytes (the data bytes before
it are fewer than four): a known marker is recorded, an unknown one makes the refill fail with a
format error. In both cases the buffered bits grow by exactly the data bytes before the marker, no
bit of the marker is delivered, and the unread bytes are those after the marker code. -/
theorem c21_marker (s : B) (hl : s.bs.bitsLeft ≤ 32) (hm : s.bs.marker = none)
    (hsync : s.avail = natBits s.bs.bitsLeft s.bs.buffer.toNat) (m : UInt8) (rest : List UInt8)
    (he : scanEnd s.rd = some (m, rest)) (hn : (scanData s.rd).length < 4) :
    ∃ s', refill s = (if (Marker.fromU8 m).isSome then .ok () else .err .format, s') ∧
      s'.rd = rest ∧ s'.bs.marker = Marker.fromU8 m ∧
      s'.avail = s.avail ++ bytesBits (scanData s.rd) := by
  rw [refill_slow s hl hm]
  obtain ⟨s', r1, r2, r3, r4, r5, r6⟩ := refillBytes_marker 4 s hm m rest he hn (by omega)
  exact ⟨s', r1, r2, r3, by rw [hsync]; exact r6⟩

/-- The hypothesis `hsync` of `c21_marker` holds in every state that a reader which starts empty
can get into while data is left (`Rep` is kept by all operations, see `c15_reader`). -/
theorem c21_sync (s : B) (bits : List Bool) (tail : Option (UInt8 × List UInt8))
    (h : Rep s bits tail) (hm : s.bs.marker = none) :
    s.avail = natBits s.bs.bitsLeft s.bs.buffer.toNat := h.sync hm

/-- The marker that the specification finds is never `00` or `FF`. -/
theorem c21_marker_code (bytes : List UInt8) (m : UInt8) (rest : List UInt8)
    (h : scanEnd bytes = some (m, rest)) : m ≠ 0 ∧ m ≠ 0xFF := by
  have key : ∀ bytes f, (scan f bytes).2 = some (m, rest) → m ≠ 0 ∧ m ≠ 0xFF := by
    intro bytes
    induction bytes with
    | nil => intro f h; cases f <;> simp [scan] at h
    | cons b r ih =>
      intro f h
      cases f with
      | false =>
        rw [scan] at h
        by_cases hb : b = 0xFF
        · rw [if_pos hb] at h; exact ih true h
        · rw [if_neg hb] at h; exact ih false h
      | true =>
        rw [scan] at h
        by_cases hb : b = 0xFF
        · rw [if_pos hb] at h; exact ih true h
        · rw [if_neg hb] at h
          by_cases h0 : b = 0
          · rw [if_pos h0] at h; exact ih false h
          · rw [if_neg h0] at h
            simp only [Option.some.injEq, Prod.mk.injEq] at h
            rw [← h.1]; exact ⟨h0, hb⟩
  exact key bytes false h

example : scanEnd [0x12, 0xFF, 0x00, 0xFF, 0xFF, 0xD3, 0x77] = some (0xD3, [0x77]) ∧
    scanData [0x12, 0xFF, 0x00, 0xFF, 0xFF, 0xD3, 0x77] = [0x12, 0xFF] := by decide

end Zune
