import Verif.Lemmas.HeaderLoop
import Verif.Lemmas.Refine
import Verif.Model.Prog
/-! Scans end, and keep invariants of the decoder object. -/

namespace Zune
open M (wp wp_bind wp_mono wp_pure wp_throw wp_idx wp_idx_of wp_okOr wp_ofOut wp_failIf wp_ite_of
  wp_diverge wp_panic wp_unwrap wp_get wp_modify)
open Spec

/-- Two components differ only in the DC prediction. -/
def SameButPred (c c' : Component) : Prop := c' = { c with dcPred := c'.dcPred }

theorem SameButPred.refl (c : Component) : SameButPred c c := rfl

/-- Properties of the decoder that scans keep. -/
structure Stable (I : Decoder → Prop) : Prop where
  spec : ∀ {d}, I d → d.specEnd ≤ 63
  effect : ∀ {m : Marker} {s s' : H}, I s.dec → Effect m s s' → I s'.dec
  todo : ∀ {d : Decoder} (n : Nat), I d → I { d with todo := n }
  preds : ∀ {d : Decoder} {cs : List Component}, List.Forall₂ SameButPred d.components cs → I d →
    I { d with components := cs }

/-- No divergence; on success `Q`. -/
abbrev wpT {σ α : Type} (m : M σ α) (Q : α → σ → Prop) (s : σ) : Prop :=
  wp True False m Q (fun _ _ => True) s

section rules
variable {σ α : Type} {Q : α → σ → Prop} {s : σ}
theorem wpT_idx {l : List α} {i : Nat} (h : ∀ a, l[i]? = some a → Q a s) :
    wpT (M.idx l i) Q s := by
  rw [wpT, wp_idx]
  cases e : l[i]? with
  | none => exact Or.inr ⟨rfl, trivial⟩
  | some a => exact Or.inl ⟨a, rfl, h a e⟩
theorem wpT_okOr {o : Option α} {e : DecodeErr} (h : ∀ a, o = some a → Q a s) :
    wpT (M.okOr o e) Q s := wp_okOr.2 ⟨h, fun _ => trivial⟩
theorem wpT_unwrap {o : Option α} (h : ∀ a, o = some a → Q a s) :
    wpT (M.unwrap o) Q s := wp_unwrap.2 ⟨h, fun _ => trivial⟩
theorem wpT_ofOut {o : Out α} (h : ∀ a, o = .ok a → Q a s) (hd : o ≠ .diverge) :
    wpT (M.ofOut o) Q s := wp_ofOut.2 ⟨h, fun _ _ => trivial, fun _ _ => trivial, hd⟩
theorem wpT_mono {m : M σ α} {Q' : α → σ → Prop} (h : wpT m Q s) (hQ : ∀ a s', Q a s' → Q' a s') :
    wpT m Q' s := wp_mono h hQ fun _ _ h => h
end rules

/-- The invariant of a scan: bytes are only taken off the front of `rd0`. -/
structure TI (I : Decoder → Prop) (rd0 : List UInt8) (t : T) : Prop where
  dec : I t.dec
  rd : t.io.rd <:+ rd0
  se : t.io.bs.specEnd ≤ 63

section
variable {I : Decoder → Prop} {rd0 : List UInt8}

theorem forall₂_modify_pred (cs : List Component) (pos : Nat) (p : I32) :
    List.Forall₂ SameButPred cs (cs.modify pos fun c => { c with dcPred := p }) := by
  induction cs generalizing pos with
  | nil => cases pos <;> exact .nil
  | cons c cs ih =>
    cases pos with
    | zero => exact .cons rfl (List.forall₂_same.2 fun c _ => .refl c)
    | succ pos => exact .cons (.refl c) (ih pos)

theorem forall₂_map_pred (cs : List Component) (p : I32) :
    List.Forall₂ SameButPred cs (cs.map fun c => { c with dcPred := p }) := by
  induction cs with
  | nil => exact .nil
  | cons c cs ih => exact .cons rfl ih

theorem TI.io {t : T} (h : TI I rd0 t) {s : B} (hs : SameP t.io s) : TI I rd0 { t with io := s } :=
  ⟨h.dec, hs.rd.trans h.rd, by rw [hs.se]; exact h.se⟩

theorem wpT_handleRst (S : Stable I) {t : T} (h : TI I rd0 t) :
    wpT handleRst (fun _ t' => TI I rd0 t' ∧ t'.jobs = t.jobs) t := by
  unfold wpT wp handleRst
  rcases t.io.bs.marker with _ | m
  · exact ⟨⟨S.todo _ h.dec, h.rd, h.se⟩, rfl⟩
  · cases m
    case rst => exact ⟨⟨S.preds (forall₂_map_pred _ _) (S.todo _ h.dec), h.rd, h.se⟩, rfl⟩
    case eoi => exact ⟨⟨S.todo _ h.dec, h.rd, h.se⟩, rfl⟩
    all_goals trivial

theorem wpT_countDown (S : Stable I) {t : T} (h : TI I rd0 t) :
    wpT countDown (fun _ t' => TI I rd0 t' ∧ t'.jobs = t.jobs) t := by
  have h' : TI I rd0 { t with dec := { t.dec with todo := wrappingPred t.dec.todo } } :=
    ⟨S.todo _ h.dec, h.rd, h.se⟩
  by_cases h0 : wrappingPred t.dec.todo = 0
  · have := wpT_handleRst S h'
    unfold wpT wp at *
    unfold countDown
    simp only [if_pos h0]
    exact this
  · unfold wpT wp countDown
    simp only [if_neg h0]
    exact ⟨h', trivial⟩

theorem decodeMcuBlock_cases (dc ac : HuffmanTable) (block : List I16) (hb : block.length = 64)
    (pred : I32) (s : B) :
    SameP s (decodeMcuBlock dc ac block pred s).2.2 ∨
      ∃ p, (decodeMcuBlock dc ac block pred s).1 = .panic p := by
  have hdcw : wp True False (decodeDc dc pred) (fun _ s' => Same s s') (fun _ s' => Same s s') s :=
    wp_decodeDc (fun h => absurd trivial h) (fun _ _ h => h) (fun _ _ h => h)
  unfold decodeMcuBlock
  rcases hL' : ac.acLookup with _ | L
  · exact Or.inr ⟨_, rfl⟩
  · simp only
    rcases hd : decodeDc dc pred s with ⟨_ | _ | _ | _, s'⟩ <;> simp only [wp, hd] at hdcw
    · rename_i p
      have haw : wp True False (decodeAc ac p block) (fun b' s'' => Same s' s'' ∧ b'.length = 64)
          (fun _ s'' => Same s' s'') s' :=
        wp_decodeAc (fun h => absurd trivial h) (fun h => absurd trivial h) hb
          (fun _ _ h h' => ⟨h, h'⟩) (fun _ _ h => h)
      simp only
      rcases ha : decodeAc ac p block s' with ⟨_ | _ | _ | _, s''⟩ <;> simp only [wp, ha] at haw
      · exact Or.inl (hdcw.toSameP.trans haw.1.toSameP)
      · exact Or.inl (hdcw.toSameP.trans haw.toSameP)
      · exact Or.inr ⟨_, rfl⟩
    · exact Or.inl hdcw.toSameP
    · exact Or.inr ⟨_, rfl⟩

theorem decodeMcuBlock_length {dc ac : HuffmanTable} {block : List I16} (hb : block.length = 64)
    {pred : I32} {s : B} {b : List I16} (h : (decodeMcuBlock dc ac block pred s).1 = .ok b) :
    b.length = 64 := by
  unfold decodeMcuBlock at h
  rcases hL' : ac.acLookup with _ | L <;> rw [hL'] at h
  · cases h
  · simp only at h
    rcases hd : decodeDc dc pred s with ⟨_ | _ | _ | _, s'⟩ <;> simp only [hd] at h
    · rename_i p
      have haw : wp True False (decodeAc ac p block) (fun b' s'' => Same s' s'' ∧ b'.length = 64)
          (fun _ s'' => Same s' s'') s' :=
        wp_decodeAc (fun h => absurd trivial h) (fun h => absurd trivial h) hb
          (fun _ _ h h' => ⟨h, h'⟩) (fun _ _ h => h)
      rcases ha : decodeAc ac p block s' with ⟨_ | _ | _ | _, s''⟩ <;>
        simp only [wp, ha] at haw h <;> cases h
      exact haw.2
    all_goals cases h

theorem decodeMcuBlock_not_diverge (dc ac : HuffmanTable) (block : List I16)
    (hb : block.length = 64) (pred : I32) (s : B) :
    (decodeMcuBlock dc ac block pred s).1 ≠ .diverge := by
  have hdcw : wp True False (decodeDc dc pred) (fun _ s' => Same s s') (fun _ s' => Same s s') s :=
    wp_decodeDc (fun h => absurd trivial h) (fun _ _ h => h) (fun _ _ h => h)
  unfold decodeMcuBlock
  rcases hL' : ac.acLookup with _ | L
  · simp
  · simp only
    rcases hd : decodeDc dc pred s with ⟨_ | _ | _ | _, s'⟩ <;> simp only [wp, hd] at hdcw
    · rename_i p
      have haw : wp True False (decodeAc ac p block) (fun b' s'' => Same s' s'' ∧ b'.length = 64)
          (fun _ s'' => Same s' s'') s' :=
        wp_decodeAc (fun h => absurd trivial h) (fun h => absurd trivial h) hb
          (fun _ _ h h' => ⟨h, h'⟩) (fun _ _ h => h)
      simp only
      rcases ha : decodeAc ac p block s' with ⟨_ | _ | _ | _, s''⟩ <;> simp only [wp, ha] at haw
      all_goals simp
    all_goals simp

theorem wpT_decodeBlock (S : Stable I) (dc ac : HuffmanTable) (pos : Nat) (block : List I16)
    (hb : block.length = 64) {t : T} (h : TI I rd0 t) :
    wpT (decodeBlock dc ac pos block)
      (fun b t' => TI I rd0 t' ∧ t'.jobs = t.jobs ∧ b.length = 64) t := by
  unfold wpT wp decodeBlock
  rcases hc : t.dec.components[pos]? with _ | c
  · trivial
  · simp only
    have h1 := decodeMcuBlock_cases dc ac block hb c.dcPred t.io
    have h2 := decodeMcuBlock_not_diverge dc ac block hb c.dcPred t.io
    have h3 := @decodeMcuBlock_length dc ac block hb c.dcPred t.io
    rcases hr : decodeMcuBlock dc ac block c.dcPred t.io with ⟨r, p, io⟩
    rw [hr] at h1 h2 h3
    cases r with
    | ok b =>
      simp only at h1 h3 ⊢
      rcases h1 with h1 | ⟨_, h1⟩
      · exact ⟨(TI.io (t := { t with dec := _ })
          ⟨S.preds (forall₂_modify_pred _ _ _) h.dec, h.rd, h.se⟩ h1), trivial, h3 rfl⟩
      · cases h1
    | err e => trivial
    | panic p => trivial
    | diverge => exact absurd rfl h2

theorem wpT_decodeSample (S : Stable I) (s : Scan) (v j pos : Nat) (dc ac : HuffmanTable)
    (c : Component) (temp : List (List I16)) (vh : Nat × Nat) {t : T} (h : TI I rd0 t) :
    wpT (decodeSample s v j pos dc ac c temp vh)
      (fun _ t' => TI I rd0 t' ∧ t'.jobs = t.jobs) t := by
  unfold decodeSample
  rw [wpT, wp_bind, wp_get]
  refine wp_ite_of (fun _ => ?_) fun _ => ?_
  · rw [wp_bind]
    refine wpT_unwrap fun buf hbuf => ?_
    refine wp_ite_of (fun hl => ?_) fun _ => trivial
    rw [wp_bind]
    refine wpT_mono (wpT_decodeBlock S _ _ _ _ (by simp; omega) h) ?_
    rintro b t' ⟨h1, h2, -⟩
    exact ⟨h1, h2⟩
  · rw [wp_bind]
    refine wpT_mono (wpT_decodeBlock S _ _ _ _ List.length_replicate h) ?_
    rintro b t' ⟨h1, h2, -⟩
    exact ⟨h1, h2⟩

theorem wpT_decodeComponent (S : Stable I) (s : Scan) (v j pos : Nat)
    (temp : List (List I16)) {t : T} (h : TI I rd0 t) :
    wpT (decodeComponent s v j temp pos) (fun _ t' => TI I rd0 t' ∧ t'.jobs = t.jobs) t := by
  unfold decodeComponent
  rw [wpT, wp_bind, wp_get, wp_bind]
  refine wpT_idx fun c _ => ?_
  rw [wp_bind]
  refine wpT_idx fun dc _ => ?_
  rw [wp_bind]
  refine wpT_okOr fun dc _ => ?_
  rw [wp_bind]
  refine wpT_idx fun ac _ => ?_
  rw [wp_bind]
  refine wpT_okOr fun ac _ => ?_
  refine M.wp_foldM (fun _ t' => TI I rd0 t' ∧ t'.jobs = t.jobs) ⟨h, rfl⟩ ?_
  rintro b a t1 - ⟨h1, h2⟩
  refine wpT_mono (wpT_decodeSample S s v j pos dc ac c b a h1) ?_
  rintro _ t2 ⟨h3, h4⟩
  exact ⟨h3, h4.trans h2⟩

theorem wpT_liftMarker' (S : Stable I) (m : Marker) {t : T} (h : TI I rd0 t) :
    wpT (liftH (parseMarkerInner m)) (fun _ t' => TI I rd0 t' ∧ t'.jobs = t.jobs ∧
      t'.io.rd <:+ t.io.rd ∧ t'.io.rd.length + 2 ≤ t.io.rd.length) t := by
  have := wp_parseMarkerInner_raw (pn := True) (dv := False) (s := ⟨t.dec, t.io.rd⟩) m
    (fun h => absurd trivial h) (fun h => absurd trivial h)
  unfold wpT wp liftH at *
  rcases hr : parseMarkerInner m ⟨t.dec, t.io.rd⟩ with ⟨_ | _ | _ | _, s⟩ <;> rw [hr] at this
  · simp only at this ⊢
    obtain ⟨h1, h2, h3⟩ := this
    exact ⟨⟨S.effect h.dec h3, h1.trans h.rd, h.se⟩, trivial, h1, h2⟩
  · trivial
  · trivial
  · exact this

theorem wpT_liftMarker (S : Stable I) (m : Marker) {t : T} (h : TI I rd0 t) :
    wpT (liftH (parseMarkerInner m)) (fun _ t' => TI I rd0 t' ∧ t'.jobs = t.jobs) t :=
  wpT_mono (wpT_liftMarker' S m h) fun _ _ h => ⟨h.1, h.2.1⟩

theorem wpT_decodeMcu (S : Stable I) (s : Scan) (v j : Nat) (l : List Nat)
    (temp : List (List I16)) {t : T} (h : TI I rd0 t) :
    wpT (decodeMcu s v j l temp) (fun _ t' => TI I rd0 t' ∧ t'.jobs = t.jobs) t := by
  induction l generalizing temp t with
  | nil => exact ⟨h, rfl⟩
  | cons pos l ih =>
    unfold decodeMcu
    rw [wpT, wp_bind]
    refine wpT_mono (wpT_decodeComponent S s v j pos temp h) ?_
    rintro temp1 t1 ⟨h1, e1⟩
    rw [wp_bind]
    refine wpT_mono (wpT_countDown S h1) ?_
    rintro _ t2 ⟨h2, e2⟩
    rw [wp_bind, wp_get]
    have go : ∀ t3, TI I rd0 t3 → t3.jobs = t2.jobs → wpT (decodeMcu s v j l temp1)
        (fun _ t' => TI I rd0 t' ∧ t'.jobs = t.jobs) t3 := by
      intro t3 h3 e3
      refine wpT_mono (ih temp1 h3) ?_
      rintro _ t4 ⟨h4, e4⟩
      exact ⟨h4, by rw [e4, e3, e2, e1]⟩
    rcases t2.io.bs.marker with _ | m
    · exact go t2 h2 rfl
    · cases m
      case eoi => exact ⟨h2, by rw [e2, e1]⟩
      case rst => exact go t2 h2 rfl
      all_goals
        dsimp only
        rw [wp_bind]
        refine wpT_mono (wpT_liftMarker S _ h2) ?_
        rintro _ t3 ⟨h3, e3⟩
        exact go t3 h3 e3

theorem wpT_decodeStrip (S : Stable I) (s : Scan) (temp : List (List I16)) {t : T}
    (h : TI I rd0 t) :
    wpT (decodeStrip s temp) (fun _ t' => TI I rd0 t' ∧ t'.jobs = t.jobs) t := by
  refine M.wp_foldM (fun _ t' => TI I rd0 t' ∧ t'.jobs = t.jobs) ⟨h, rfl⟩ ?_
  rintro b ⟨v, j⟩ t1 - ⟨h1, h2⟩
  dsimp only
  rw [wp_bind, wp_get]
  refine wpT_mono (wpT_decodeMcu S s v j _ b h1) ?_
  rintro _ t2 ⟨h3, h4⟩
  exact ⟨h3, h4.trans h2⟩

theorem allocTemp_ne_diverge (s : Scan) (d : Decoder) : allocTemp s d ≠ .diverge := by
  unfold allocTemp
  dsimp only
  split <;> simp

theorem wpT_submit (s : Scan) (temp : List (List I16)) {t : T} :
    wpT (submit s temp) (fun _ t' => t'.dec = t.dec ∧ t'.io = t.io ∧
      t'.jobs.length = t.jobs.length + 1 ∧ t.jobs.length < s.outLen / s.chunk) t := by
  unfold wpT wp submit
  by_cases hj : t.jobs.length < s.outLen / s.chunk
  · simp only [if_pos hj]
    exact ⟨trivial, trivial, by simp, hj⟩
  · simp only [if_neg hj]

theorem wpT_strips (S : Stable I) (s : Scan) (n : Nat) {t : T} (h : TI I rd0 t) :
    wpT (strips s n) (fun _ t' => TI I rd0 t' ∧ t'.jobs.length = t.jobs.length + n ∧
      (0 < n → t.jobs.length + n ≤ s.outLen / s.chunk)) t := by
  induction n generalizing t with
  | zero => exact ⟨h, rfl, fun h => absurd h (by omega)⟩
  | succ n ih =>
    unfold strips
    rw [wpT, wp_bind]
    unfold strip
    rw [wp_bind, wp_get, wp_bind]
    refine wpT_ofOut (fun temp _ => ?_) (allocTemp_ne_diverge _ _)
    rw [wp_bind]
    refine wpT_mono (wpT_decodeStrip S s temp h) ?_
    rintro temp' t1 ⟨h1, e1⟩
    refine wpT_mono (wpT_submit s temp') ?_
    rintro _ t2 ⟨f1, f2, f3, f4⟩
    have h2 : TI I rd0 t2 := ⟨by rw [f1]; exact h1.dec, by rw [f2]; exact h1.rd,
      by rw [f2]; exact h1.se⟩
    refine wpT_mono (ih h2) ?_
    rintro _ t3 ⟨h3, g1, g2⟩
    rw [e1] at f3 f4
    exact ⟨h3, by omega, fun _ => by omega⟩

/-! ### Progressive scans -/

theorem scanMarker_suffix (f : Bool) (l : List UInt8) : (scanMarker f l).2 <:+ l := by
  induction l generalizing f with
  | nil => cases f <;> exact List.suffix_refl _
  | cons b l ih =>
    have hs : l <:+ b :: l := List.suffix_cons _ _
    cases f with
    | false => unfold scanMarker; exact (ih _).trans hs
    | true =>
      unfold scanMarker
      split
      · exact (ih _).trans hs
      · split
        · exact (ih _).trans hs
        · exact hs

theorem wpT_getMarker {t : T} (h : TI I rd0 t) :
    wpT getMarker (fun _ t' => TI I rd0 t' ∧ t'.dec = t.dec) t := by
  unfold wpT wp getMarker
  rcases t.io.bs.marker with _ | m
  · have := scanMarker_suffix false t.io.rd
    simp only
    rcases hs : scanMarker false t.io.rd with ⟨_ | m, rd⟩
    · trivial
    · rw [hs] at this
      exact ⟨⟨h.dec, this.trans h.rd, h.se⟩, rfl⟩
  · exact ⟨⟨h.dec, h.rd, h.se⟩, rfl⟩

theorem wpT_takeMarker {t : T} (h : TI I rd0 t) :
    wpT takeMarker (fun _ t' => TI I rd0 t' ∧ t'.dec = t.dec) t := by
  unfold wpT wp takeMarker
  rcases t.io.bs.marker with _ | m
  · trivial
  · exact ⟨⟨h.dec, h.rd, h.se⟩, rfl⟩

theorem wpT_progTable {l : List (Option HuffmanTable)} {i : Nat} {t : T}
    {Q : HuffmanTable → T → Prop} (h : ∀ x, l[i]? = some (some x) → Q x t) :
    wpT (progTable l i) Q t := by
  unfold wpT wp progTable
  rcases hl : l[i]? with _ | _ | x
  · trivial
  · trivial
  · exact h x hl

theorem wpT_liftB {α : Type} {m : M B α} {t : T} {Q : α → T → Prop}
    (h : wpT m (fun a s => Q a { t with io := s }) t.io) : wpT (liftB m) Q t := by
  unfold wpT wp liftB at *
  rcases hm : m t.io with ⟨_ | _ | _ | _, s⟩ <;> rw [hm] at h <;> exact h

theorem wpT_progDc (S : Stable I) (k : Nat) (c : I16) (table : HuffmanTable) {t : T}
    (h : TI I rd0 t) : wpT (progDc k c table) (fun _ t' => TI I rd0 t') t := by
  unfold progDc
  rw [wpT, wp_bind, wp_get, wp_bind]
  refine wpT_idx fun comp _ => ?_
  refine wp_ite_of (fun _ => ?_) fun _ => ?_
  · rw [wp_bind]
    refine wpT_liftB ?_
    refine wp_decodeProgDcFirst (fun h => absurd trivial h) ?_ (fun _ _ _ => trivial)
    rintro ⟨v, p⟩ s hs
    have := h.io hs.toSameP
    exact ⟨S.preds (forall₂_modify_pred _ _ _) this.dec, this.rd, this.se⟩
  · refine wpT_liftB ?_
    exact wp_decodeProgDcRefine (fun v s hs _ => h.io hs.toSameP) (fun _ _ _ => trivial)

theorem raster_step {mw i j e : Nat} (hj : j < mw) (he : 0 < e) :
    (j + e - 1) % mw < mw ∧
      i * (mw + 1) + j ≤ (i + (j + e - 1) / mw) * (mw + 1) + (j + e - 1) % mw := by
  have h1 : (j + e - 1) % mw < mw := Nat.mod_lt _ (by omega)
  refine ⟨h1, ?_⟩
  have h2 := Nat.div_add_mod (j + e - 1) mw
  generalize (j + e - 1) / mw = q at *
  generalize (j + e - 1) % mw = r at *
  have h3 : (i + q) * (mw + 1) = i * (mw + 1) + mw * q + q := by ring
  rw [h3]
  omega

theorem wpT_progBlock (S : Stable I) (k mw i j : Nat) (hj : j < mw) (block : List I16)
    (hb : block.length = 64) {t : T} (h : TI I rd0 t) :
    wpT (progBlock k mw i j block) (fun r t' => TI I rd0 t' ∧ r.2.1 < mw ∧
      i * (mw + 1) + j ≤ r.1 * (mw + 1) + r.2.1) t := by
  unfold progBlock
  rw [wpT, wp_bind, wp_get, wp_bind]
  refine wpT_idx fun comp _ => ?_
  refine wp_ite_of (fun _ => ?_) fun _ => ?_
  · rw [wp_bind]
    refine wpT_progTable fun table _ => ?_
    rw [wp_bind]
    refine wpT_idx fun c _ => ?_
    rw [wp_bind]
    refine wpT_mono (wpT_progDc S k c table h) fun v t' h' => ?_
    exact ⟨h', hj, Nat.le_refl _⟩
  · rw [wp_bind]
    refine wpT_progTable fun table _ => ?_
    refine wp_ite_of (fun _ => ?_) fun _ => ?_
    · dsimp only
      refine wp_ite_of (fun he => ?_) fun _ => ?_
      · rw [wp_bind, wp_modify, wp_pure]
        have := raster_step (i := i) hj he
        exact ⟨⟨h.dec, h.rd, h.se⟩, this.1, this.2⟩
      · rw [wp_bind]
        refine wpT_liftB ?_
        refine wp_decodeMcuAcFirst (fun h => absurd trivial h) (fun h => absurd trivial h) hb
          (by have := h.se; omega) ?_ (fun _ _ _ => trivial)
        rintro b s hs -
        exact ⟨h.io hs, hj, Nat.le_refl _⟩
    · rw [wp_bind]
      refine wpT_liftB ?_
      refine wp_decodeMcuAcRefine_total (fun h => absurd trivial h)
        (by have := h.se; omega) hb ?_ (fun _ _ _ => trivial)
      rintro b s hs -
      exact ⟨h.io hs, hj, Nat.le_refl _⟩

theorem wpT_progLoop (S : Stable I) (k mw mh : Nat) : ∀ (fuel i j : Nat) (bufs : List (List I16))
    (t : T), TI I rd0 t → j ≤ mw → mh * (mw + 1) + 1 ≤ fuel + (i * (mw + 1) + j) →
    wpT (progLoop k mw mh fuel i j bufs) (fun _ t' => TI I rd0 t') t
  | 0, i, j, bufs, t, h, hj, hf => by
    unfold progLoop
    refine wp_ite_of (fun hi => ?_) fun _ => h
    exfalso
    have : (i + 1) * (mw + 1) ≤ mh * (mw + 1) := Nat.mul_le_mul_right _ hi
    rw [Nat.add_mul] at this
    omega
  | fuel + 1, i, j, bufs, t, h, hj, hf => by
    unfold progLoop
    refine wp_ite_of (fun hi => ?_) fun _ => h
    refine wp_ite_of (fun hjw => ?_) fun hjw => ?_
    · rw [wp_bind, wp_get, wp_bind]
      refine wpT_idx fun comp _ => ?_
      dsimp only
      rw [wp_bind]
      refine wpT_unwrap fun buf _ => ?_
      refine wp_ite_of (fun hl => ?_) fun _ => trivial
      rw [wp_bind]
      refine wpT_mono (wpT_progBlock S k mw i j hjw _ (by simp; omega) h) ?_
      rintro ⟨i', j', b⟩ t1 ⟨h1, h2, h3⟩
      dsimp only at h2 h3 ⊢
      rw [wp_bind]
      refine wpT_mono (wpT_countDown S h1) ?_
      rintro _ t2 ⟨h4, -⟩
      exact wpT_progLoop S k mw mh fuel i' (j' + 1) _ t2 h4 (by omega) (by omega)
    · refine wpT_progLoop S k mw mh fuel (i + 1) 0 bufs t h (by omega) ?_
      rw [Nat.add_mul]
      omega

theorem wpT_interSample (S : Stable I) (i j n : Nat) (comp : Component) (table : HuffmanTable)
    (bufs : List (List I16)) (vh : Nat × Nat) {t : T} (h : TI I rd0 t) :
    wpT (interSample i j n comp table bufs vh) (fun _ t' => TI I rd0 t') t := by
  unfold interSample
  dsimp only
  rw [wpT, wp_bind]
  refine wpT_idx fun buf _ => ?_
  rw [wp_bind]
  refine wpT_idx fun c _ => ?_
  rw [wp_bind]
  exact wpT_mono (wpT_progDc S n c table h) fun v t' h' => h'

theorem wpT_interComponent (S : Stable I) (i j : Nat) (bufs : List (List I16)) (k : Nat) {t : T}
    (h : TI I rd0 t) : wpT (interComponent i j bufs k) (fun _ t' => TI I rd0 t') t := by
  unfold interComponent
  rw [wpT, wp_bind, wp_get, wp_bind]
  refine wpT_idx fun n _ => ?_
  refine wp_ite_of (fun _ => trivial) fun _ => ?_
  rw [wp_bind]
  refine wpT_idx fun comp _ => ?_
  rw [wp_bind]
  refine wpT_progTable fun table _ => ?_
  rw [wp_bind]
  refine wpT_mono (M.wp_foldM (fun _ t' => TI I rd0 t') h ?_) ?_
  · intro b a t1 _ h1
    exact wpT_interSample S i j n comp table b a h1
  · intro b t1 h1
    rw [wp_bind]
    exact wpT_mono (wpT_countDown S h1) fun _ _ h => h.1

theorem checkDims_ne_diverge (cw : Nat) (cs : List Component) : checkDims cw cs ≠ .diverge := by
  induction cs with
  | nil => simp [checkDims]
  | cons c cs ih =>
    unfold checkDims
    split
    · exact ih
    · split
      · simp
      · split
        · simp
        · exact ih

theorem checkComponentDimensions_ne_diverge (d : Decoder) :
    d.checkComponentDimensions ≠ .diverge := by
  unfold Decoder.checkComponentDimensions
  split
  · simp
  · split
    · simp
    · exact checkDims_ne_diverge _ _

theorem wpT_parseEntropy (S : Stable I) (bufs : List (List I16)) {t : T}
    (h : TI I rd0 t) : wpT (parseEntropy bufs) (fun _ t' => TI I rd0 t') t := by
  unfold parseEntropy
  rw [wpT, wp_bind, wp_get, wp_bind]
  refine wpT_ofOut (fun _ _ => ?_) (checkComponentDimensions_ne_diverge _)
  rw [wp_bind, wp_modify, wp_bind, wp_get]
  have h1 : TI I rd0 { t with
      io := { t.io with bs := t.io.bs.reset }
      dec := { t.dec with components := t.dec.components.map fun c => { c with dcPred := 0 } } } :=
    ⟨S.preds (forall₂_map_pred _ _) h.dec, h.rd, h.se⟩
  dsimp only
  refine wp_ite_of (fun _ => trivial) fun _ => ?_
  refine wp_ite_of (fun _ => ?_) fun _ => ?_
  · refine wp_ite_of (fun _ => trivial) fun _ => ?_
    rw [wp_bind]
    refine wpT_idx fun k _ => ?_
    refine wp_ite_of (fun _ => trivial) fun _ => ?_
    rw [wp_bind]
    refine wpT_idx fun comp _ => ?_
    exact wpT_progLoop S _ _ _ _ 0 0 _ _ h1 (Nat.zero_le _) (by
      generalize (if comp.componentId = ComponentID.y ∨ t.dec.interleaved = false then
        (blocks8 t.dec.info.width, blocks8 t.dec.info.height) else (t.dec.mcuX, t.dec.mcuY)) = q
      rw [Nat.mul_comm q.2]
      omega)
  · refine wp_ite_of (fun _ => trivial) fun _ => ?_
    refine M.wp_foldM (fun _ t' => TI I rd0 t') h1 ?_
    rintro b ⟨i, j⟩ t1 - h2
    refine M.wp_foldM (fun _ t' => TI I rd0 t') h2 ?_
    rintro b k t1 - h3
    exact wpT_interComponent S i j b k h3

theorem TI.self {t : T} (h : TI I rd0 t) : TI I t.io.rd t := ⟨h.dec, List.suffix_refl _, h.se⟩
theorem TI.widen {t : T} {rd1 : List UInt8} (h : TI I rd1 t) (hs : rd1 <:+ rd0) : TI I rd0 t :=
  ⟨h.dec, h.rd.trans hs, h.se⟩

theorem wpT_scanLoop (S : Stable I) : ∀ (fuel seen : Nat) (m : Marker) (bufs : List (List I16))
    (t : T), TI I rd0 t → t.io.rd.length < fuel →
    wpT (scanLoop fuel seen m bufs) (fun _ t' => TI I rd0 t') t
  | 0, _, _, _, _, _, hf => by omega
  | fuel + 1, seen, m, bufs, t, h, hf => by
    unfold scanLoop
    cases m
    case eoi => exact h
    case dht =>
      dsimp only
      rw [wpT, wp_bind]
      refine wpT_mono (wpT_liftMarker' S .dht h) ?_
      rintro _ t1 ⟨h1, -, -, hl⟩
      rw [wp_bind]
      refine wpT_mono (wpT_getMarker h1.self) ?_
      rintro m' t2 ⟨h2, -⟩
      have := h2.rd.length_le
      exact wpT_scanLoop S fuel seen m' bufs t2 (h2.widen h1.rd) (by omega)
    case sos =>
      rw [wpT, wp_bind]
      refine wpT_mono (wpT_liftMarker' S .sos h) ?_
      rintro _ t1 ⟨h1, -, -, hl⟩
      rw [wp_bind, wp_modify, wp_bind]
      have h2 : TI I t1.io.rd { t1 with io := { t1.io with
          bs := t1.io.bs.updateProgressiveParams t1.dec.succHigh t1.dec.succLow t1.dec.specStart
            t1.dec.specEnd } } := ⟨h1.dec, List.suffix_refl _, S.spec h1.dec⟩
      refine wpT_mono (wpT_parseEntropy S bufs h2) ?_
      rintro bufs' t3 h3
      rw [wp_bind]
      refine wpT_mono (wpT_getMarker h3) ?_
      rintro m' t4 ⟨h4, -⟩
      rw [wp_bind, wp_get]
      refine wp_ite_of (fun _ => trivial) fun _ => ?_
      rw [wp_bind, wp_modify]
      have := h4.rd.length_le
      exact wpT_scanLoop S fuel (seen + 1) m' bufs' _
        ⟨h4.dec, h4.rd.trans h1.rd, h4.se⟩ (by dsimp only; omega)
    all_goals exact h

theorem wpT_progScans (S : Stable I) (bufs : List (List I16)) {t : T}
    (h : TI I rd0 t) : wpT (progScans bufs) (fun _ t' => TI I rd0 t') t := by
  unfold progScans
  rw [wpT, wp_bind]
  refine wpT_mono (wpT_parseEntropy S bufs h) ?_
  rintro bufs' t1 h1
  rw [wp_bind]
  refine wpT_mono (wpT_takeMarker h1) ?_
  rintro m t2 ⟨h2, -⟩
  rw [wp_bind, wp_get]
  exact wpT_scanLoop S _ _ _ _ _ h2 (by omega)

/-! ### The whole decoder -/

theorem collect_ne_diverge {α : Type} {l : List (Out α)} (h : ∀ o ∈ l, o ≠ .diverge) :
    Out.collect l ≠ .diverge := by
  induction l with
  | nil => simp [Out.collect]
  | cons o l ih =>
    have h1 := h o (by simp)
    have h2 := ih fun o ho => h o (by simp [ho])
    unfold Out.collect
    cases o with
    | ok a => cases hc : Out.collect l <;> simp_all [Out.bind]
    | diverge => exact absurd rfl h1
    | _ => simp [Out.bind]

theorem fold_ne_diverge {α β : Type} {f : β → α → Out β} (h : ∀ b a, f b a ≠ .diverge) (b : β)
    (l : List α) : Out.fold f b l ≠ .diverge := by
  induction l generalizing b with
  | nil => simp [Out.fold]
  | cons a l ih =>
    unfold Out.fold
    have := h b a
    cases hf : f b a with
    | ok c => exact ih c
    | diverge => exact absurd hf this
    | _ => simp [Out.bind]

theorem checkTables_ne_diverge (d : Decoder) : d.checkTables ≠ .diverge := by
  refine fold_ne_diverge (fun _ i => ?_) _ _
  unfold checkTable
  split
  · simp
  · split
    · split <;> simp
    · simp

/-- What the preparation of a scan can do to the decoder. -/
structure SetupRel (d d' : Decoder) : Prop where
  rest : d' = { d with
    subSampleRatio := d'.subSampleRatio, components := d'.components, hMax := d'.hMax
    vMax := d'.vMax, options := d'.options }
  opts : d'.options = d.options ∨
    (d.inputColorspace = .grayscale ∧ d'.options = d.options.setOutColorspace .grayscale)
  comps : d'.components.length = d.components.length

theorem SetupRel.refl (d : Decoder) : SetupRel d d := ⟨rfl, Or.inl rfl, rfl⟩

/-- The kinds of subsampling that are supported, and the upsampler of each. -/
def Sampling (cpu : Cpu) (un : Bool) (h v : Nat) (r : SubSampRatios) (u : UpSampler) : Prop :=
  (h = 2 ∧ v = 1 ∧ r = .h ∧ u = chooseHorizontal cpu un) ∨
  (h = 1 ∧ v = 2 ∧ r = .v ∧ u = .vertical) ∨
  (h = 2 ∧ v = 2 ∧ r = .hv ∧ u = chooseHv cpu un)

theorem setUpsampling_ok {d d' : Decoder} (h : Decoder.setUpsampling d = (.ok (), d')) :
    (d.hMax = 1 ∧ d.vMax = 1 ∧ d' = d) ∨
    ∃ r u c cs, Sampling d.cpu d.options.useUnsafe d.hMax d.vMax r u ∧ d.components = c :: cs ∧
      d' = { d with
        subSampleRatio := r, components := c :: cs.map fun x => { x with upSampler := u } } := by
  unfold Decoder.setUpsampling setTailUpSampler at h
  dsimp only at h
  split at h
  · rename_i hc
    cases h
    exact Or.inl ⟨hc.2, hc.1 ▸ hc.2, rfl⟩
  · right
    split at h
    · rename_i hc
      cases hcs : d.components with
      | nil => rw [hcs] at h; cases h
      | cons c cs =>
        rw [hcs] at h; cases h
        exact ⟨_, _, c, cs, Or.inl ⟨hc.1, hc.2, rfl, rfl⟩, rfl, rfl⟩
    · split at h
      · rename_i hc
        cases hcs : d.components with
        | nil => rw [hcs] at h; cases h
        | cons c cs =>
          rw [hcs] at h; cases h
          exact ⟨_, _, c, cs, Or.inr (Or.inl ⟨hc.1, hc.2, rfl, rfl⟩), rfl, rfl⟩
      · split at h
        · rename_i hc
          cases hcs : d.components with
          | nil => rw [hcs] at h; cases h
          | cons c cs =>
            rw [hcs] at h; cases h
            exact ⟨_, _, c, cs, Or.inr (Or.inr ⟨hc.1, hc.2, rfl, rfl⟩), rfl, rfl⟩
        · cases h

theorem setUpsampling_ne_diverge (d : Decoder) : (Decoder.setUpsampling d).1 ≠ .diverge := by
  unfold Decoder.setUpsampling setTailUpSampler
  dsimp only
  repeat' split
  all_goals first
    | (intro h; cases h; done)
    | (rename_i heq; split at heq <;> cases heq)

theorem wpT_setUpsampling {h : H} : wpT (liftDec Decoder.setUpsampling)
    (fun _ h' => h'.rd = h.rd ∧ Decoder.setUpsampling h.dec = (.ok (), h'.dec)) h := by
  unfold wpT wp liftDec
  have := setUpsampling_ne_diverge h.dec
  rcases hd : Decoder.setUpsampling h.dec with ⟨_ | _ | _ | _, d'⟩ <;> rw [hd] at this
  · exact ⟨rfl, rfl⟩
  · trivial
  · trivial
  · exact absurd rfl this

theorem setupRel_upsampling {d d' : Decoder} (h : Decoder.setUpsampling d = (.ok (), d')) :
    SetupRel d d' := by
  rcases setUpsampling_ok h with ⟨-, -, rfl⟩ | ⟨r, u, c, cs, -, hc, rfl⟩
  · exact .refl _
  · exact ⟨rfl, Or.inl rfl, by rw [hc]; simp⟩

theorem wpT_mcuCounts {h : H} : wpT mcuCounts (fun _ h' => h'.rd = h.rd ∧
    SetupRel h.dec h'.dec) h := by
  unfold mcuCounts
  rw [wpT, wp_bind, wp_getDec]
  refine wp_ite_of (fun _ => ?_) fun _ => ?_
  · rw [wp_bind]
    refine wpT_mono wpT_setUpsampling ?_
    rintro _ h' ⟨h1, h2⟩
    rw [wp_bind, wp_getDec]
    have := setupRel_upsampling h2
    refine wp_ite_of (fun _ => ⟨h1, this⟩) fun _ => ?_
    refine wp_ite_of (fun _ => ⟨h1, this⟩) fun _ => ⟨h1, this⟩
  · exact ⟨rfl, .refl _⟩

theorem wpT_grayReset {d0 : Decoder} {m : Nat × Nat × Nat} {h : H} (hr : SetupRel d0 h.dec) :
    wpT (grayReset m) (fun _ h' => h'.rd = h.rd ∧ SetupRel d0 h'.dec) h := by
  unfold grayReset
  rw [wpT, wp_bind, wp_getDec]
  refine wp_ite_of (fun hg => ?_) fun _ => ⟨rfl, hr⟩
  refine wp_ite_of (fun _ => trivial) fun _ => ?_
  refine wp_ite_of (fun _ => trivial) fun _ => ?_
  rw [wp_bind, wp_modDec, wp_pure]
  refine ⟨rfl, ?_, ?_, ?_⟩
  · dsimp only
    rw [hr.rest]
  · right
    have e : h.dec.inputColorspace = d0.inputColorspace := by rw [hr.rest]
    refine ⟨e ▸ hg.1, ?_⟩
    dsimp only
    rcases hr.opts with h | ⟨-, h⟩ <;> rw [h]
    rfl
  · dsimp only
    rw [List.length_modify, hr.comps]

theorem wpT_baselineSetup {h : H} : wpT baselineSetup (fun s h' => h'.rd = h.rd ∧
    SetupRel h.dec h'.dec ∧ s.chunk ≠ 0 ∧ ∃ m c0, s = mkScan m h'.dec c0) h := by
  unfold baselineSetup
  rw [wpT, wp_bind, wp_getDec, wp_bind]
  refine wpT_ofOut (fun _ _ => ?_) (checkComponentDimensions_ne_diverge _)
  rw [wp_bind]
  refine wpT_ofOut (fun _ _ => ?_) (checkTables_ne_diverge _)
  rw [wp_bind]
  refine wpT_mono wpT_mcuCounts ?_
  rintro m h1 ⟨e1, r1⟩
  rw [wp_bind]
  refine wpT_mono (wpT_grayReset r1) ?_
  rintro m' h2 ⟨e2, r2⟩
  rw [wp_bind, wp_getDec, wp_bind]
  refine wpT_idx fun c0 _ => ?_
  dsimp only
  refine wp_ite_of (fun _ => trivial) fun hc => ?_
  exact ⟨e2.trans e1, r2, hc, m', c0, rfl⟩

theorem wpT_decodeBaseline (S : Stable I) (hS : ∀ {d d'}, I d → SetupRel d d' → I d') {h : H}
    (hI : I h.dec) : wpT decodeBaseline (fun v h' => I h'.dec ∧ ∃ d1 m c0 parts,
      SetupRel h.dec d1 ∧ chunkLen d1 ≠ 0 ∧
      v = assemble (mkScan m d1 c0).outLen (keepLen h'.dec) parts) h := by
  have hs := wpT_baselineSetup (h := h)
  unfold wpT wp decodeBaseline
  unfold wpT wp at hs
  rcases hb : baselineSetup h with ⟨s | e | p | _, h1⟩ <;> rw [hb] at hs
  · simp only at hs ⊢
    obtain ⟨e1, r1, hc, m, c0, rfl⟩ := hs
    have hst := wpT_strips S (mkScan m h1.dec c0) (mkScan m h1.dec c0).mcuHeight (rd0 := h.rd)
      (t := { dec := h1.dec, io := { bs := BitStream.new, rd := h1.rd } })
      ⟨hS hI r1, e1 ▸ List.suffix_refl _, Nat.zero_le _⟩
    unfold wpT wp at hst
    rcases hr : strips (mkScan m h1.dec c0) (mkScan m h1.dec c0).mcuHeight
      { dec := h1.dec, io := { bs := BitStream.new, rd := h1.rd } } with ⟨_ | _ | _ | _, t⟩ <;>
      rw [hr] at hst
    · simp only at hst ⊢
      unfold joinPool
      by_cases hu : t.jobs.any Out.isUnsound = true
      · rw [if_pos hu]; trivial
      rw [if_neg hu]
      rcases hc : Out.collect t.jobs with parts | _ | _ | _
      · exact ⟨hst.1.dec, h1.dec, m, c0, parts, r1, ‹_›, rfl⟩
      all_goals trivial
    · simp only [joinPool]
      by_cases hu : t.jobs.any Out.isUnsound = true
      · rw [if_pos hu]; trivial
      rw [if_neg hu]
      by_cases hj : t.jobs.all Out.isOk = true
      · rw [if_pos hj]; trivial
      · rw [if_neg hj]; trivial
    · simp only [joinPool]
      by_cases hu : t.jobs.any Out.isUnsound = true
      · rw [if_pos hu]; trivial
      · rw [if_neg hu]; trivial
    · exact hst.elim
  · trivial
  · trivial
  · exact hs

theorem progAlloc_ne_diverge (d : Decoder) : progAlloc d ≠ .diverge := by
  unfold progAlloc
  dsimp only
  have : Out.collect ((List.range d.inputColorspace.numComponents).map fun i =>
    match d.components[i]? with
    | none => .panic .index
    | some c => .ok (List.replicate ((if d.interleaved then d.mcuX else
      (d.info.width.toNat + 7) / 8) * 64 * c.verticalSample * c.horizontalSample *
      (if d.interleaved then d.mcuY else (d.info.height.toNat + 7) / 8)) (0 : I16))) ≠ .diverge := by
    refine collect_ne_diverge ?_
    intro o ho
    simp only [List.mem_map] at ho
    obtain ⟨i, -, rfl⟩ := ho
    split <;> simp
  revert this
  generalize Out.collect _ = o
  cases o <;> simp [Out.bind]

theorem wpT_finishSetup {n : Nat} {h : H} : wpT (finishSetup n) (fun _ h' => h'.rd = h.rd ∧
    SetupRel h.dec h'.dec ∧ h'.dec.options = h.dec.options) h := by
  unfold finishSetup
  rw [wpT, wp_bind]
  refine wpT_mono wpT_setUpsampling ?_
  rintro _ h1 ⟨e1, hu⟩
  have hr := setupRel_upsampling hu
  have ho : h1.dec.options = h.dec.options := by
    rcases setUpsampling_ok hu with ⟨-, -, e⟩ | ⟨r, u, c, cs, -, hc, e⟩ <;> rw [e]
  rw [wp_bind, wp_getDec]
  dsimp only
  refine wp_ite_of (fun hg => ?_) fun _ => ⟨e1, hr, ho⟩
  refine wp_ite_of (fun _ => trivial) fun _ => ?_
  refine wp_ite_of (fun _ => trivial) fun _ => ?_
  rw [wp_bind, wp_modDec, wp_pure]
  refine ⟨e1, ⟨?_, Or.inl ho, ?_⟩, ho⟩
  · dsimp only
    rw [hr.rest]
  · dsimp only
    rw [List.length_modify, hr.comps]

theorem progStrips_ne_diverge (d : Decoder) (mw bias : Nat) (bufs : List (List I16)) :
    progStrips d mw bias bufs ≠ .diverge := by
  unfold progStrips
  split
  · simp
  · dsimp only
    split
    · simp
    · split
      · split
        · simp
        · split <;> simp
      · simp

theorem wpT_finishProgressive {bufs : List (List I16)} {n : Nat} {h : H} :
    wpT (finishProgressive bufs n) (fun v h' => SetupRel h.dec h'.dec ∧ ∃ parts,
      h'.dec.options = h.dec.options ∧
      v = assemble (outBufferLen h'.dec) (keepLen h'.dec) parts) h := by
  unfold finishProgressive
  rw [wpT, wp_bind]
  refine wpT_mono wpT_finishSetup ?_
  rintro ⟨mw, bias⟩ h1 ⟨e1, r1, ho⟩
  dsimp only
  rw [wp_bind, wp_getDec, wp_bind]
  refine wpT_ofOut (fun ss _ => ?_) (progStrips_ne_diverge _ _ _ _)
  rw [wp_bind]
  refine wpT_ofOut (fun parts _ => ?_) ?_
  · exact ⟨r1, parts, ho, rfl⟩
  · unfold joinPool
    split
    · simp
    split
    · simp
    · simp_all
    · simp_all
    · split <;> simp

theorem wpT_runScans (S : Stable I) (bufs : List (List I16)) {h : H} (hI : I h.dec) :
    wpT (runScans bufs) (fun _ h' => I h'.dec) h := by
  have hp := wpT_progScans S bufs (rd0 := h.rd) (t := { dec := h.dec, io := progIo h })
    ⟨hI, List.suffix_refl _, S.spec hI⟩
  unfold wpT wp at hp
  unfold wpT wp runScans
  rcases hr : progScans bufs { dec := h.dec, io := progIo h } with ⟨_ | _ | _ | _, t⟩ <;>
      rw [hr] at hp
  · exact hp.dec
  · trivial
  · trivial
  · exact hp

theorem wpT_decodeProgressive (S : Stable I) (hS : ∀ {d d'}, I d → SetupRel d d' → I d') {h : H}
    (hI : I h.dec) : wpT decodeProgressive (fun v h' => I h'.dec ∧ ∃ parts,
      v = assemble (outBufferLen h'.dec) (keepLen h'.dec) parts) h := by
  unfold decodeProgressive
  rw [wpT, wp_bind, wp_getDec, wp_bind]
  refine wpT_ofOut (fun _ _ => ?_) (checkComponentDimensions_ne_diverge _)
  rw [wp_bind]
  refine wpT_ofOut (fun mb _ => ?_) (progAlloc_ne_diverge _)
  dsimp only
  rw [wp_bind]
  refine wpT_mono (wpT_runScans S mb.2 hI) ?_
  intro bufs h1 hI1
  refine wpT_mono wpT_finishProgressive ?_
  rintro v h2 ⟨r2, parts, ho, hv⟩
  exact ⟨hS hI1 r2, parts, hv⟩

end
end Zune
