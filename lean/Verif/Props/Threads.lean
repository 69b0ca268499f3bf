import Verif.Props.Scan
import Verif.Props.Limits
/-!
# The thread pool

C41: the strips are post-processed by jobs of a thread pool. A job owns its coefficients and one
chunk of the output buffer (`chunks_exact_mut`). Here a job is any machine that works in small steps
on a local state and its chunk; the pool may run the steps of the jobs in any order.
-/

namespace Zune
open Spec

namespace Spec

/-- State of a job: waiting or running with a local state, ended, or panicked. -/
inductive Status (σ : Type) where
  | active (s : σ)
  | ended
  | panicked

/-- A job: what the next step does with the local state and the bytes of the chunk. The length of
the chunk cannot change. -/
structure Job (σ : Type) where
  start : σ
  step : σ → List UInt8 → Status σ × List UInt8
  keeps : ∀ s c, (step s c).2.length = c.length

/-- Execution of a job without any other. -/
inductive Alone {σ : Type} (j : Job σ) (s : Status σ) (c : List UInt8) :
    Status σ → List UInt8 → Prop
  | refl : Alone j s c s c
  | step {s' : Status σ} {x : σ} {c' : List UInt8} (h : Alone j s c (.active x) c')
      (e : (j.step x c').1 = s') : Alone j s c s' (j.step x c').2

/-- The job, run on its own on a chunk of `n` zeros, comes to the outcome `o`. -/
def Computes {σ : Type} (n : Nat) (j : Job σ) (o : Out (List UInt8)) : Prop :=
  (∀ r, o = .ok r → Alone j (.active j.start) (List.replicate n 0) .ended r) ∧
  ((∀ r, o ≠ .ok r) → ∃ r, Alone j (.active j.start) (List.replicate n 0) .panicked r)

/-- One execution of the pool, with any choice of the job that makes the next step. Job `i` works on
bytes `i * n .. i * n + n` of the buffer. -/
inductive Pool {σ : Type} (n : Nat) (js : List (Job σ)) (st : List (Status σ)) (b : List UInt8) :
    List (Status σ) → List UInt8 → Prop
  | refl : Pool n js st b st b
  | step {st' : List (Status σ)} {b' : List UInt8} (h : Pool n js st b st' b') (i : Nat)
      {j : Job σ} (hj : js[i]? = some j) {x : σ} (hx : st'[i]? = some (.active x)) :
      Pool n js st b (st'.set i (j.step x ((b'.drop (i * n)).take n)).1)
        (writeAt b' (i * n) (j.step x ((b'.drop (i * n)).take n)).2)

/-- No job is active. -/
def Settled {σ : Type} (st : List (Status σ)) : Prop := ∀ s ∈ st, ∀ x, s ≠ .active x

end Spec

section
variable {σ : Type}

/-- Bytes `i * n .. i * n + n`. -/
abbrev chunkAt (b : List UInt8) (n i : Nat) : List UInt8 := (b.drop (i * n)).take n

theorem getElem?_chunkAt {b : List UInt8} {n i k : Nat} :
    (chunkAt b n i)[k]? = if k < n then b[i * n + k]? else none := by
  rw [List.getElem?_take]
  split
  · rw [List.getElem?_drop]
  · rfl

/-- An execution of the pool is, for each job, an execution of the job alone on its chunk; the bytes
that belong to no job are not changed. -/
theorem pool_alone {n : Nat} {js : List (Job σ)} {st st' : List (Status σ)} {b b' : List UInt8}
    (h : Pool n js st b st' b') (hb : js.length * n ≤ b.length) (hl : st.length = js.length) :
    b'.length = b.length ∧ st'.length = js.length ∧
    (∀ i j s, js[i]? = some j → st[i]? = some s → ∃ s', st'[i]? = some s' ∧
      Alone j s (chunkAt b n i) s' (chunkAt b' n i)) ∧
    (∀ k, js.length * n ≤ k → b'[k]? = b[k]?) := by
  induction h with
  | refl =>
    refine ⟨rfl, hl, fun i j s hj hs => ⟨s, hs, .refl⟩, fun _ _ => rfl⟩
  | @step st' b' h i j hj x hx ih =>
    obtain ⟨h1, h2, h3, h4⟩ := ih
    have hi : i < js.length := (List.getElem?_eq_some_iff.1 hj).1
    have hin : i * n + n ≤ js.length * n := by
      calc i * n + n = (i + 1) * n := by rw [Nat.add_mul, Nat.one_mul]
        _ ≤ js.length * n := Nat.mul_le_mul_right _ hi
    have hc : (chunkAt b' n i).length = n := by
      rw [List.length_take, List.length_drop]
      omega
    have hk := j.keeps x (chunkAt b' n i)
    rw [hc] at hk
    have hw : i * n + (j.step x (chunkAt b' n i)).2.length ≤ b'.length := by omega
    refine ⟨(length_writeAt hw).trans h1, by rw [List.length_set]; exact h2, ?_, ?_⟩
    · intro i' j' s hj' hs
      by_cases hii : i' = i
      · subst hii
        rw [hj] at hj'
        cases hj'
        obtain ⟨s', e, ha⟩ := h3 i' j s hj hs
        rw [hx] at e
        cases e
        refine ⟨_, List.getElem?_set_self (by omega), ?_⟩
        have : chunkAt (writeAt b' (i' * n) (j.step x (chunkAt b' n i')).2) n i' =
            (j.step x (chunkAt b' n i')).2 := by
          apply List.ext_getElem?
          intro k
          rw [getElem?_chunkAt, getElem?_writeAt hw]
          split
          · rw [if_pos (by omega)]
            congr 1
            omega
          · rw [List.getElem?_eq_none (by omega)]
        rw [this]
        exact .step ha rfl
      · obtain ⟨s', e, ha⟩ := h3 i' j' s hj' hs
        refine ⟨s', by rw [List.getElem?_set_ne (fun h => hii h.symm)]; exact e, ?_⟩
        have : chunkAt (writeAt b' (i * n) (j.step x (chunkAt b' n i)).2) n i' =
            chunkAt b' n i' := by
          apply List.ext_getElem?
          intro k
          rw [getElem?_chunkAt, getElem?_chunkAt, getElem?_writeAt hw]
          split
          · rename_i hkn
            refine if_neg ?_
            rintro ⟨a, b⟩
            rw [hk] at b
            rcases Nat.lt_or_gt_of_ne hii with hlt | hgt
            · have : (i' + 1) * n ≤ i * n := Nat.mul_le_mul_right _ hlt
              rw [Nat.add_mul] at this
              omega
            · have : (i + 1) * n ≤ i' * n := Nat.mul_le_mul_right _ hgt
              rw [Nat.add_mul] at this
              omega
          · rfl
        rw [this]
        exact ha
    · intro k hkk
      rw [getElem?_writeAt hw, if_neg (by omega)]
      exact h4 k hkk

/-- A job that is run alone has one execution: of two, one continues the other. -/
theorem alone_det {j : Job σ} {s s1 s2 : Status σ} {c c1 c2 : List UInt8}
    (h1 : Alone j s c s1 c1) (h2 : Alone j s c s2 c2) : Alone j s1 c1 s2 c2 ∨ Alone j s2 c2 s1 c1 := by
  induction h1 with
  | refl => exact .inl h2
  | @step s' x c' h e ih =>
    rcases ih with h | h
    · -- the other one continues from the state before the step
      have : ∀ {a b : Status σ} {ca cb : List UInt8}, Alone j a ca b cb → a = .active x → ca = c' →
          (a = b ∧ ca = cb) ∨ Alone j s' (j.step x c').2 b cb := by
        intro a b ca cb hab ha hca
        subst ha hca
        induction hab with
        | refl => exact .inl ⟨rfl, rfl⟩
        | @step b y cb hab e' ih' =>
          right
          rcases ih' with ⟨e1, e2⟩ | h'
          · cases e1
            rw [← e', ← e2, e]
            exact .refl
          · exact .step h' e'
      rcases this h rfl rfl with ⟨rfl, rfl⟩ | h'
      · exact .inr (.step (.refl) e)
      · exact .inl h'
    · exact .inr (.step h e)

/-- A job that has ended or panicked stays as it is. -/
theorem alone_final {j : Job σ} {s s' : Status σ} {c c' : List UInt8} (h : Alone j s c s' c')
    (hs : ∀ x, s ≠ .active x) : s' = s ∧ c' = c := by
  induction h with
  | refl => exact ⟨rfl, rfl⟩
  | step h e ih => exact absurd ih.1.symm (hs _)

theorem alone_unique {j : Job σ} {s s1 s2 : Status σ} {c c1 c2 : List UInt8}
    (h1 : Alone j s c s1 c1) (h2 : Alone j s c s2 c2) (f1 : ∀ x, s1 ≠ .active x)
    (f2 : ∀ x, s2 ≠ .active x) : s1 = s2 ∧ c1 = c2 := by
  rcases alone_det h1 h2 with h | h
  · have := alone_final h f1
    exact ⟨this.1.symm, this.2.symm⟩
  · exact alone_final h f2

theorem chunkAt_replicate {n m i : Nat} (h : i * n + n ≤ m) :
    chunkAt (List.replicate m (0 : UInt8)) n i = List.replicate n 0 := by
  unfold chunkAt
  rw [List.drop_replicate, List.take_replicate, Nat.min_eq_left (by omega)]

/-- **C41**, all schedules: jobs that on their own come to the outcomes `os` are run by the pool in any
order of their steps on an output buffer of `m` zeros. Whenever all jobs have stopped, a job has
panicked exactly if its outcome is not `ok`; and if all outcomes are `ok` the buffer holds the
results one after the other, followed by the zeros that were there. -/
theorem c41_schedules {n m : Nat} {js : List (Job σ)} {os : List (Out (List UInt8))}
    (hc : List.Forall₂ (Computes n) js os) (hroom : js.length * n ≤ m)
    {st : List (Status σ)} {b : List UInt8}
    (h : Pool n js (js.map fun j => .active j.start) (List.replicate m 0) st b) (hst : Settled st) :
    ((∃ s ∈ st, s = .panicked) ↔ ∃ o ∈ os, ∀ r, o ≠ .ok r) ∧
    (∀ parts : List (List UInt8), os = parts.map .ok → b = fit m 0 parts.flatten) := by
  have hlen := hc.length_eq
  obtain ⟨h1, h2, h3, h4⟩ := pool_alone h (by rw [List.length_replicate]; exact hroom)
    (List.length_map _)
  rw [List.length_replicate] at h1
  -- the final state of each job
  have key : ∀ i o, os[i]? = some o → ∃ s', st[i]? = some s' ∧
      (∀ r, o = .ok r → s' = .ended ∧ chunkAt b n i = r) ∧
      ((∀ r, o ≠ .ok r) → s' = .panicked) := by
    intro i o ho
    have hi : i < js.length := by
      rw [hlen]
      exact (List.getElem?_eq_some_iff.1 ho).1
    have hin : i * n + n ≤ m := by
      refine Nat.le_trans ?_ hroom
      calc i * n + n = (i + 1) * n := by rw [Nat.add_mul, Nat.one_mul]
        _ ≤ js.length * n := Nat.mul_le_mul_right _ hi
    have hj : js[i]? = some js[i] := List.getElem?_eq_getElem hi
    have hcmp : Computes n js[i] o := by
      have := List.forall₂_iff_get.1 hc |>.2 i hi (by omega)
      obtain ⟨hlt, e⟩ := List.getElem?_eq_some_iff.1 ho
      rw [← e]
      exact this
    obtain ⟨s', e, ha⟩ := h3 i js[i] _ hj (by rw [List.getElem?_map, hj]; rfl)
    rw [chunkAt_replicate hin] at ha
    have hs' : ∀ x, s' ≠ .active x := hst s' (List.mem_of_getElem? e)
    refine ⟨s', e, fun r hr => ?_, fun hr => ?_⟩
    · exact alone_unique ha (hcmp.1 r hr) hs' (fun x => by intro h; cases h)
    · obtain ⟨r, hr'⟩ := hcmp.2 hr
      exact (alone_unique ha hr' hs' (fun x => by intro h; cases h)).1
  constructor
  · constructor
    · rintro ⟨s, hs, rfl⟩
      obtain ⟨i, hi⟩ := List.mem_iff_getElem?.1 hs
      have hio : i < os.length := by
        have := (List.getElem?_eq_some_iff.1 hi).1
        omega
      refine ⟨os[i], List.getElem_mem hio, fun r hr => ?_⟩
      obtain ⟨s', e, h5, -⟩ := key i os[i] (List.getElem?_eq_getElem hio)
      rw [hi] at e
      cases e
      have := (h5 r hr).1
      cases this
    · rintro ⟨o, ho, hne⟩
      obtain ⟨i, hi⟩ := List.mem_iff_getElem?.1 ho
      obtain ⟨s', e, -, h5⟩ := key i o hi
      exact ⟨s', List.mem_of_getElem? e, h5 hne⟩
  · rintro parts rfl
    rw [List.length_map] at hlen
    have hpl : ∀ i p, parts[i]? = some p → chunkAt b n i = p := by
      intro i p hp
      obtain ⟨s', -, h5, -⟩ := key i (.ok p) (by rw [List.getElem?_map, hp]; rfl)
      exact (h5 p rfl).2
    have hplen : ∀ p ∈ parts, p.length = n := by
      intro p hp
      obtain ⟨i, hi⟩ := List.mem_iff_getElem?.1 hp
      have hlt := (List.getElem?_eq_some_iff.1 hi).1
      rw [← hpl i p hi, List.length_take, List.length_drop, h1]
      have : (i + 1) * n ≤ js.length * n := Nat.mul_le_mul_right _ (by omega)
      rw [Nat.add_mul] at this
      omega
    have hfl := length_flatten_const hplen
    rw [← hlen] at hfl
    apply List.ext_getElem?
    intro k
    unfold fit
    by_cases hkm : k < m
    swap
    · rw [List.getElem?_eq_none (by omega), List.getElem?_eq_none]
      rw [List.length_take]
      omega
    rw [List.getElem?_take_of_lt hkm]
    by_cases hk : k < js.length * n
    · rw [List.getElem?_append_left (by omega)]
      have hn : 0 < n := by
        rcases Nat.eq_zero_or_pos n with rfl | h0
        · omega
        · exact h0
      have hkd : k / n < parts.length := by
        rw [← hlen]
        exact Nat.div_lt_of_lt_mul (by rw [Nat.mul_comm]; exact hk)
      have hkmod : k % n < n := Nat.mod_lt _ hn
      have := getElem?_flatten_const hplen (i := k / n) (j := k % n) hkmod
      rw [Nat.mul_comm, Nat.div_add_mod] at this
      rw [this]
      have hp := hpl (k / n) _ (List.getElem?_eq_getElem hkd)
      have hc := getElem?_chunkAt (b := b) (n := n) (i := k / n) (k := k % n)
      rw [hp, if_pos hkmod, Nat.mul_comm, Nat.div_add_mod] at hc
      rw [List.getElem?_eq_getElem hkd, Option.bind_some, hc]
    · rw [h4 k (by omega), List.getElem?_replicate, if_pos hkm,
        List.getElem?_append_right (by omega), List.getElem?_replicate, if_pos (by omega)]

/-- A job makes its steps inside the pool; the chunks of the other jobs stay as they are. -/
theorem pool_lift {n : Nat} {js : List (Job σ)} {st0 st : List (Status σ)} {b0 b : List UInt8}
    (h : Pool n js st0 b0 st b) (hb : js.length * n ≤ b.length) {i : Nat} {j : Job σ}
    (hj : js[i]? = some j) {s s' : Status σ} {c c' : List UInt8} (ha : Alone j s c s' c')
    (hs : st[i]? = some s) (hc : chunkAt b n i = c) :
    ∃ st' b', Pool n js st0 b0 st' b' ∧ st'[i]? = some s' ∧ st'.length = st.length ∧
      b'.length = b.length ∧ chunkAt b' n i = c' ∧
      ∀ i', i' ≠ i → i' < js.length → st'[i']? = st[i']? ∧ chunkAt b' n i' = chunkAt b n i' := by
  induction ha with
  | refl => exact ⟨st, b, h, hs, rfl, rfl, hc, fun _ _ _ => ⟨rfl, rfl⟩⟩
  | @step s' x c' ha e ih =>
    obtain ⟨st', b', h1, h2, h3, h4, h5, h6⟩ := ih
    have hi : i < js.length := (List.getElem?_eq_some_iff.1 hj).1
    have hnext := Pool.step h1 i hj h2
    have hin : i * n + n ≤ js.length * n := by
      calc i * n + n = (i + 1) * n := by rw [Nat.add_mul, Nat.one_mul]
        _ ≤ js.length * n := Nat.mul_le_mul_right _ hi
    have hcl : (chunkAt b' n i).length = n := by
      rw [List.length_take, List.length_drop]
      omega
    have hk := j.keeps x (chunkAt b' n i)
    rw [hcl] at hk
    have hw : i * n + (j.step x (chunkAt b' n i)).2.length ≤ b'.length := by omega
    refine ⟨_, _, hnext, ?_, ?_, ?_, ?_, ?_⟩
    · rw [List.getElem?_set_self (List.getElem?_eq_some_iff.1 h2).1]
      show some (j.step x (chunkAt b' n i)).1 = _
      rw [h5, e]
    · rw [List.length_set]
      exact h3
    · rw [length_writeAt hw]
      exact h4
    · apply List.ext_getElem?
      intro k
      rw [getElem?_chunkAt, getElem?_writeAt hw, h5]
      rw [h5] at hk
      split
      · rw [if_pos (by omega)]
        congr 1
        omega
      · rw [List.getElem?_eq_none (by omega)]
    · intro i' hii hi'
      obtain ⟨g1, g2⟩ := h6 i' hii hi'
      refine ⟨by rw [List.getElem?_set_ne (fun h => hii h.symm)]; exact g1, ?_⟩
      rw [← g2]
      apply List.ext_getElem?
      intro k
      rw [getElem?_chunkAt, getElem?_chunkAt, getElem?_writeAt hw]
      split
      · refine if_neg ?_
        rintro ⟨a, b⟩
        rw [hk] at b
        rcases Nat.lt_or_gt_of_ne hii with hlt | hgt
        · have : (i' + 1) * n ≤ i * n := Nat.mul_le_mul_right _ hlt
          rw [Nat.add_mul] at this
          omega
        · have : (i + 1) * n ≤ i' * n := Nat.mul_le_mul_right _ hgt
          rw [Nat.add_mul] at this
          omega
      · rfl

/-- There is an execution in which all jobs stop: one after the other. So `c41_schedules` is not
empty, and one thread is enough. -/
theorem c41_sequential {n m : Nat} {js : List (Job σ)} {os : List (Out (List UInt8))}
    (hc : List.Forall₂ (Computes n) js os) (hroom : js.length * n ≤ m) :
    ∃ st b, Pool n js (js.map fun j => .active j.start) (List.replicate m 0) st b ∧ Settled st := by
  have hlen := hc.length_eq
  have key : ∀ k ≤ js.length, ∃ st b,
      Pool n js (js.map fun j => .active j.start) (List.replicate m 0) st b ∧
      st.length = js.length ∧ b.length = m ∧
      (∀ i < k, ∀ s, st[i]? = some s → ∀ x, s ≠ .active x) ∧
      (∀ i j, k ≤ i → js[i]? = some j → st[i]? = some (.active j.start) ∧
        chunkAt b n i = List.replicate n 0) := by
    intro k
    induction k with
    | zero =>
      intro _
      refine ⟨_, _, .refl, List.length_map _, List.length_replicate,
        fun i hi => absurd hi (by omega), fun i j _ hj => ⟨?_, ?_⟩⟩
      · rw [List.getElem?_map, hj]
        rfl
      · have hi : i < js.length := (List.getElem?_eq_some_iff.1 hj).1
        have : (i + 1) * n ≤ js.length * n := Nat.mul_le_mul_right _ hi
        rw [Nat.add_mul] at this
        exact chunkAt_replicate (by omega)
    | succ k ih =>
      intro hk
      obtain ⟨st, b, h1, h2, h3, h4, h5⟩ := ih (by omega)
      have hj : js[k]? = some js[k] := List.getElem?_eq_getElem (by omega)
      obtain ⟨e1, e2⟩ := h5 k js[k] (Nat.le_refl _) hj
      have hcmp : Computes n js[k] os[k] := by
        have := List.forall₂_iff_get.1 hc |>.2 k (by omega) (by omega)
        exact this
      have hfin : ∃ s' c', Alone js[k] (.active js[k].start) (List.replicate n 0) s' c' ∧
          ∀ x, s' ≠ .active x := by
        by_cases ho : ∃ r, os[k] = .ok r
        · obtain ⟨r, hr⟩ := ho
          exact ⟨_, _, hcmp.1 r hr, fun x h => by cases h⟩
        · obtain ⟨r, hr⟩ := hcmp.2 (fun r hr => ho ⟨r, hr⟩)
          exact ⟨_, _, hr, fun x h => by cases h⟩
      obtain ⟨s', c', ha, hs'⟩ := hfin
      obtain ⟨st', b', g1, g2, g3, g4, g5, g6⟩ := pool_lift h1 (by omega) hj ha e1 e2
      refine ⟨st', b', g1, by omega, by omega, ?_, ?_⟩
      · intro i hi s hs
        by_cases hik : i = k
        · subst hik
          rw [g2] at hs
          cases hs
          exact hs'
        · rw [(g6 i hik (by omega)).1] at hs
          exact h4 i (by omega) s hs
      · intro i j hi hj'
        have hil : i < js.length := (List.getElem?_eq_some_iff.1 hj').1
        obtain ⟨f1, f2⟩ := g6 i (by omega) hil
        rw [f1, f2]
        exact h5 i j (by omega) hj'
  obtain ⟨st, b, h1, h2, -, h4, -⟩ := key js.length (Nat.le_refl _)
  refine ⟨st, b, h1, fun s hs => ?_⟩
  obtain ⟨i, hi⟩ := List.mem_iff_getElem?.1 hs
  exact h4 i (by have := (List.getElem?_eq_some_iff.1 hi).1; omega) s hi

/-- The result of joining the pool after a scan without an error. -/
theorem joinPool_settled {js : List (Job σ)} {os : List (Out (List UInt8))} {n m : Nat}
    (hc : List.Forall₂ (Computes n) js os) (hroom : js.length * n ≤ m)
    {st : List (Status σ)} {b : List UInt8}
    (h : Pool n js (js.map fun j => .active j.start) (List.replicate m 0) st b) (hst : Settled st)
    (keep : Nat) :
    ((∃ s ∈ st, s = .panicked) → ((joinPool (.ok ()) os).map (assemble m keep)).isPanic = true) ∧
    ((¬ ∃ s ∈ st, s = .panicked) →
      (joinPool (.ok ()) os).map (assemble m keep) = .ok (b.take keep)) := by
  obtain ⟨h1, h2⟩ := c41_schedules hc hroom h hst
  have hcol : (∃ o ∈ os, ∀ r, o ≠ .ok r) ↔ ¬ ∃ parts, Out.collect os = .ok parts := by
    constructor
    · rintro ⟨o, ho, hne⟩ ⟨parts, hp⟩
      rw [Out.collect_ok_iff] at hp
      rw [hp] at ho
      obtain ⟨r, -, hr⟩ := List.mem_map.1 ho
      exact hne r hr.symm
    · intro hno
      by_contra hall
      refine hno ⟨os.map fun o => match o with | .ok r => r | _ => [], ?_⟩
      rw [Out.collect_ok_iff, List.map_map]
      refine (List.map_id os).symm.trans (List.map_congr_left fun o ho => ?_)
      rcases o with r | _ | _ | _
      · rfl
      all_goals exact absurd ⟨_, ho, fun r h => by cases h⟩ hall
  have hunsound : ∀ parts, Out.collect os = .ok parts → os.any Out.isUnsound = false := by
    intro parts hp
    rw [Out.collect_ok_iff] at hp
    rw [hp, List.any_eq_false]
    intro o ho
    obtain ⟨r, -, rfl⟩ := List.mem_map.1 ho
    simp [Out.isUnsound]
  constructor
  · intro hp
    have hno := hcol.1 (h1.1 hp)
    unfold joinPool
    split
    · rfl
    · dsimp only
      rcases he : Out.collect os with parts | _ | _ | _
      · exact absurd ⟨parts, he⟩ hno
      all_goals rfl
  · intro hp
    have : ∃ parts, Out.collect os = .ok parts := by
      by_contra hno
      exact hp (h1.2 (hcol.2 hno))
    obtain ⟨parts, hparts⟩ := this
    have hb := h2 parts (Out.collect_ok_iff.1 hparts)
    unfold joinPool
    rw [hunsound parts hparts, if_neg (by decide)]
    dsimp only
    rw [hparts, hb]
    rfl

/-- **C41** for a baseline image whose scan ends without an error: however the pool orders the steps
of the jobs, once it has been joined the result of the decoder is the truncated buffer, or a panic
if a job has panicked. -/
theorem c41_baseline {d : Decoder} {rd : List UInt8} {s : Scan} {h1 : H} {t : T}
    (hd : d.specEnd ≤ 63) (hs : baselineSetup ⟨d, rd⟩ = (.ok s, h1))
    (hr : strips s s.mcuHeight { dec := h1.dec, io := { bs := BitStream.new, rd := h1.rd } } =
      (.ok (), t))
    {js : List (Job σ)} (hc : List.Forall₂ (Computes s.chunk) js t.jobs)
    {st : List (Status σ)} {b : List UInt8}
    (h : Pool s.chunk js (js.map fun j => .active j.start) (List.replicate s.outLen 0) st b)
    (hst : Settled st) :
    ((∃ x ∈ st, x = .panicked) → (decodeBaseline ⟨d, rd⟩).1.isPanic = true) ∧
    ((¬ ∃ x ∈ st, x = .panicked) →
      (decodeBaseline ⟨d, rd⟩).1 = .ok (b.take (keepLen t.dec))) := by
  have hrel := M.wp_ok (wpT_baselineSetup (h := ⟨d, rd⟩)) hs
  have hd' : h1.dec.specEnd ≤ 63 := by
    rw [hrel.2.1.rest]
    exact hd
  obtain ⟨-, -, -, hroom⟩ := M.wp_ok (wpT_strips_room s s.mcuHeight
    (t := { dec := h1.dec, io := { bs := BitStream.new, rd := h1.rd } }) hd' (Nat.zero_le _)
    (by intro o ho; cases ho) (Nat.zero_le _)) hr
  have hroom' : js.length * s.chunk ≤ s.outLen := by
    rw [hc.length_eq]
    exact Nat.le_trans (Nat.mul_le_mul_right _ hroom) (Nat.div_mul_le_self _ _)
  have := joinPool_settled hc hroom' h hst (keepLen t.dec)
  have he : (decodeBaseline ⟨d, rd⟩).1 =
      (joinPool (.ok ()) t.jobs).map (assemble s.outLen (keepLen t.dec)) := by
    unfold decodeBaseline
    rw [hs]
    dsimp only
    rw [hr]
  rw [he]
  exact this

theorem progStrips_length {d : Decoder} {mw bias : Nat} {bufs : List (List I16)}
    {ss : List (List (List I16))} (h : progStrips d mw bias bufs = .ok ss) :
    ss.length ≤ outBufferLen d / chunkLen d := by
  unfold progStrips at h
  rcases hc0 : d.components[0]? with _ | c0 <;> rw [hc0] at h <;> dsimp only at h
  · cases h
  by_cases h1 : chunkLen d = 0 ∨ mw * c0.verticalSample * c0.horizontalSample * bias = 0
  · rw [if_pos h1] at h
    cases h
  rw [if_neg h1] at h
  by_cases h2 : d.inputColorspace.numComponents = 3
  · rw [if_pos h2] at h
    rcases hc1 : d.components[1]? with _ | c1 <;> rw [hc1] at h <;> dsimp only at h
    · cases h
    by_cases h3 : mw * c1.verticalSample * c1.horizontalSample * bias = 0
    · rw [if_pos h3] at h
      cases h
    rw [if_neg h3] at h
    cases h
    rw [List.length_map, List.length_take]
    omega
  · rw [if_neg h2] at h
    cases h
    rw [List.length_map, List.length_take]
    omega

/-- **C41** for the last part of the decoding of a progressive image. -/
theorem c41_progressive {h0 h1 : H} {bufs : List (List I16)} {w mw bias : Nat}
    {ss : List (List (List I16))} (hf : finishSetup w h0 = (.ok (mw, bias), h1))
    (hss : progStrips h1.dec mw bias bufs = .ok ss)
    {js : List (Job σ)} (hc : List.Forall₂ (Computes (chunkLen h1.dec)) js
      (ss.map fun s => postProcess h1.dec.idctFn h1.dec.colorFn h1.dec.components
        h1.dec.inputColorspace h1.dec.options.getOutColorspace h1.dec.info.width.toNat s
        (List.replicate (chunkLen h1.dec) 0)))
    {st : List (Status σ)} {b : List UInt8}
    (h : Pool (chunkLen h1.dec) js (js.map fun j => .active j.start)
      (List.replicate (outBufferLen h1.dec) 0) st b) (hst : Settled st) :
    ((∃ x ∈ st, x = .panicked) → (finishProgressive bufs w h0).1.isPanic = true) ∧
    ((¬ ∃ x ∈ st, x = .panicked) →
      (finishProgressive bufs w h0).1 = .ok (b.take (keepLen h1.dec))) := by
  have hroom : js.length * chunkLen h1.dec ≤ outBufferLen h1.dec := by
    rw [hc.length_eq, List.length_map]
    exact Nat.le_trans (Nat.mul_le_mul_right _ (progStrips_length hss)) (Nat.div_mul_le_self _ _)
  have := joinPool_settled hc hroom h hst (keepLen h1.dec)
  have he : (finishProgressive bufs w h0).1 = (joinPool (.ok ()) (ss.map fun s =>
      postProcess h1.dec.idctFn h1.dec.colorFn h1.dec.components
        h1.dec.inputColorspace h1.dec.options.getOutColorspace h1.dec.info.width.toNat s
        (List.replicate (chunkLen h1.dec) 0))).map
      (assemble (outBufferLen h1.dec) (keepLen h1.dec)) := by
    unfold finishProgressive
    simp only [M.bind_apply, hf, getDec, M.ofOut, hss]
    rcases joinPool (.ok ()) (ss.map fun s =>
      postProcess h1.dec.idctFn h1.dec.colorFn h1.dec.components
        h1.dec.inputColorspace h1.dec.options.getOutColorspace h1.dec.info.width.toNat s
        (List.replicate (chunkLen h1.dec) 0)) with _ | _ | _ | _ <;> rfl
  rw [he]
  exact this

end

/-- The decoder with another number of threads. -/
def Spec.withThreads (n : Nat) (d : Decoder) : Decoder :=
  { d with options := d.options.setNumThreads n }

/-- **C41**, number of threads: every image that is decoded is decoded to the same bytes with any
other number of threads. -/
theorem c41_threads (n : Nat) (d d' : Decoder) (buf v : List UInt8)
    (h : d.decodeBuffer buf = (.ok v, d')) :
    (withThreads n d).decodeBuffer buf = (.ok v, withThreads n d') := by
  have := Relax.decodeBuffer ⟨id, id, id, fun _ => Nat.le_refl _, fun _ => Nat.le_refl _,
    fun _ => Nat.le_refl _, true, fun _ => n, fun _ => none,
    fun _ => none⟩ h
  have e : ∀ x : Decoder, Relax.dec ⟨id, id, id, fun _ => Nat.le_refl _, fun _ => Nat.le_refl _,
      fun _ => Nat.le_refl _, true, fun _ => n, fun _ => none,
    fun _ => none⟩ x = withThreads n x := by
    intro x
    unfold Relax.dec Relax.opts withThreads Options.setNumThreads
    dsimp only
    rw [Bool.and_true, fillTables_none, fillTables_none]
    rfl
  rw [e, e] at this
  exact this

/-- A job that writes the bytes of `r` one by one, from the first to the last. -/
def writerJob (r : List UInt8) : Job Nat where
  start := 0
  step k c := if k < r.length then (.active (k + 1), c.set k (r.getD k 0)) else (.ended, c)
  keeps k c := by
    split
    · exact List.length_set
    · rfl

/-- A job that writes a byte and panics. -/
def panicJob : Job Nat where
  start := 0
  step k c := if k = 0 then (.active 1, c.set 0 7) else (.panicked, c)
  keeps k c := by
    split
    · exact List.length_set
    · rfl

/-- The byte-wise writer computes its bytes. -/
theorem writerJob_computes (r : List UInt8) : Computes r.length (writerJob r) (.ok r) := by
  refine ⟨?_, fun h => absurd rfl (h r)⟩
  rintro r' e
  cases e
  have key : ∀ k ≤ r.length, Alone (writerJob r) (.active 0) (List.replicate r.length 0) (.active k)
      (r.take k ++ List.replicate (r.length - k) 0) := by
    intro k
    induction k with
    | zero => intro _; exact .refl
    | succ k ih =>
      intro hk
      have h1 := ih (by omega)
      have h2 := Alone.step (s' := .active (k + 1)) h1 (by
        show (if k < r.length then _ else _ : Status Nat × List UInt8).1 = _
        rw [if_pos (by omega)])
      have h3 : ((writerJob r).step k (r.take k ++ List.replicate (r.length - k) 0)).2 =
          r.take (k + 1) ++ List.replicate (r.length - (k + 1)) 0 := by
        show (if k < r.length then _ else _ : Status Nat × List UInt8).2 = _
        rw [if_pos (by omega)]
        dsimp only
        have hg : r.getD k 0 = r[k] := by
          rw [List.getD_eq_getElem?_getD, List.getElem?_eq_getElem (by omega), Option.getD_some]
        rw [hg, List.set_append_right _ _ (by rw [List.length_take]; omega), List.length_take,
          Nat.min_eq_left (by omega), Nat.sub_self,
          show r.length - k = (r.length - (k + 1)) + 1 by omega, List.replicate_succ,
          List.set_cons_zero, List.take_add_one, List.getElem?_eq_getElem (by omega),
          Option.toList_some, List.append_assoc, List.singleton_append]
      rw [h3] at h2
      exact h2
  have h1 := key r.length (Nat.le_refl _)
  rw [List.take_length, Nat.sub_self, List.replicate_zero, List.append_nil] at h1
  have h2 := Alone.step (s' := .ended) h1 (by
    show (if r.length < r.length then _ else _ : Status Nat × List UInt8).1 = _
    rw [if_neg (by omega)])
  have h3 : ((writerJob r).step r.length r).2 = r := by
    show (if r.length < r.length then _ else _ : Status Nat × List UInt8).2 = _
    rw [if_neg (by omega)]
  rw [h3] at h2
  exact h2

theorem panicJob_computes : Computes 3 panicJob (.panic .index) :=
  ⟨fun r e => (by cases e), fun _ => ⟨_, .step (.step .refl rfl) rfl⟩⟩

/-- The hypotheses of `c41_schedules` can be met: two jobs that write byte by byte. -/
example : ∃ st b, Pool 3 [writerJob [1, 2, 3], writerJob [4, 5, 6]]
    [.active 0, .active 0] (List.replicate 8 0) st b ∧ Settled st ∧ b = [1, 2, 3, 4, 5, 6, 0, 0] := by
  have hc : List.Forall₂ (Computes 3) [writerJob [1, 2, 3], writerJob [4, 5, 6]]
      [.ok [1, 2, 3], .ok [4, 5, 6]] :=
    .cons (writerJob_computes _) (.cons (writerJob_computes _) .nil)
  obtain ⟨st, b, h1, h2⟩ := c41_sequential (m := 8) hc (by decide)
  exact ⟨st, b, h1, h2, (c41_schedules hc (by decide) h1 h2).2 [[1, 2, 3], [4, 5, 6]] rfl⟩

/-- And an image is decoded with one thread and with sixteen. -/
example : ((withThreads 1 (Decoder.new ⟨false, false⟩)).decodeBuffer tinyFile).1.isOk = true ∧
    ((withThreads 16 (Decoder.new ⟨false, false⟩)).decodeBuffer tinyFile).1.isOk = true := by
  decide +kernel

end Zune
