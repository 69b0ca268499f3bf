import Verif.Lemmas.Again
/-!
# Two runs of the header parser from different decoders

If reading the headers of a file fails, then reading them again with the same decoder fails in the
same way, although the first run has left its traces in the decoder.
-/

namespace Zune

/-- Both computations succeed, with related results. If the first does not succeed, then (given
`k`) the second ends in the same way. -/
def Twin {σ τ α β : Type} (k : Prop) (m : M σ α) (m' : M τ β) (s : σ) (s' : τ)
    (Q : α → σ → β → τ → Prop) : Prop :=
  match m s with
  | (.ok a, t) => ∃ b t', m' s' = (.ok b, t') ∧ Q a t b t'
  | (.err e, _) => k → ∃ t', m' s' = (.err e, t')
  | (.panic p, _) => k → ∃ t', m' s' = (.panic p, t')
  | (.diverge, _) => k → ∃ t', m' s' = (.diverge, t')

namespace Twin
section
variable {σ τ α β γ δ : Type} {k : Prop} {s : σ} {s' : τ}

theorem mono {m : M σ α} {m' : M τ β} {Q Q' : α → σ → β → τ → Prop} (h : Twin k m m' s s' Q)
    (hQ : ∀ a t b t', Q a t b t' → Q' a t b t') : Twin k m m' s s' Q' := by
  unfold Twin at h ⊢
  rcases hm : m s with ⟨(a | e | p | _), t⟩ <;> rw [hm] at h
  · obtain ⟨b, t', h1, h2⟩ := h
    exact ⟨b, t', h1, hQ _ _ _ _ h2⟩
  all_goals exact h

theorem bind {m : M σ α} {m' : M τ β} {f : α → M σ γ} {f' : β → M τ δ}
    {Q : γ → σ → δ → τ → Prop}
    (h : Twin k m m' s s' fun a t b t' => Twin k (f a) (f' b) t t' Q) :
    Twin k (m >>= f) (m' >>= f') s s' Q := by
  unfold Twin at h ⊢
  rw [M.bind_apply]
  rcases hm : m s with ⟨(a | e | p | _), t⟩ <;> rw [hm] at h
  · obtain ⟨b, t', h1, h2⟩ := h
    rw [M.bind_ok h1]
    exact h2
  · exact fun hk => let ⟨t', e⟩ := h hk; ⟨t', M.bind_err e⟩
  · exact fun hk => let ⟨t', e⟩ := h hk; ⟨t', M.bind_panic e⟩
  · exact fun hk => let ⟨t', e⟩ := h hk; ⟨t', M.bind_diverge e⟩

theorem pure {a : α} {b : β} {Q : α → σ → β → τ → Prop} (h : Q a s b s') :
    Twin k (Pure.pure a : M σ α) (Pure.pure b : M τ β) s s' Q := ⟨b, s', rfl, h⟩
theorem throw {e : DecodeErr} {Q : α → σ → β → τ → Prop} :
    Twin k (M.throw e) (M.throw e) s s' Q := fun _ => ⟨s', rfl⟩
theorem panic {e : Site} {Q : α → σ → β → τ → Prop} :
    Twin k (M.panic e) (M.panic e) s s' Q := fun _ => ⟨s', rfl⟩
theorem diverge {Q : α → σ → β → τ → Prop} :
    Twin k (M.diverge) (M.diverge) s s' Q := fun _ => ⟨s', rfl⟩
theorem ite {c c' : Prop} [Decidable c] [Decidable c'] {m n : M σ α} {m' n' : M τ β}
    {Q : α → σ → β → τ → Prop} (hc : c ↔ c') (h1 : c → Twin k m m' s s' Q)
    (h2 : ¬ c → Twin k n n' s s' Q) :
    Twin k (if c then m else n) (if c' then m' else n') s s' Q := by
  by_cases h : c
  · rw [if_pos h, if_pos (hc.1 h)]
    exact h1 h
  · rw [if_neg h, if_neg (fun x => h (hc.2 x))]
    exact h2 h
theorem failIf {c : Bool} {e : DecodeErr} {Q : Unit → σ → Unit → τ → Prop} (h : Q () s () s') :
    Twin k (M.failIf c e) (M.failIf c e) s s' Q := by
  cases c
  · exact ⟨(), s', rfl, h⟩
  · exact fun _ => ⟨s', rfl⟩
theorem ofOut {o : Out α} {Q : α → σ → α → τ → Prop} (h : ∀ a, o = .ok a → Q a s a s') :
    Twin k (M.ofOut o) (M.ofOut o) s s' Q := by
  rcases o with (a | e | p | _)
  · exact ⟨a, s', rfl, h a rfl⟩
  all_goals exact fun _ => ⟨s', rfl⟩
theorem okOr {o : Option α} {o' : Option β} {e : DecodeErr} {Q : α → σ → β → τ → Prop}
    (h : ∀ a, o = some a → ∃ b, o' = some b ∧ Q a s b s') (hn : k → o = none → o' = none) :
    Twin k (M.okOr o e) (M.okOr o' e) s s' Q := by
  rcases o with _ | a
  · exact fun hk => ⟨s', by rw [hn hk rfl]; rfl⟩
  · obtain ⟨b, rfl, h2⟩ := h a rfl
    exact ⟨b, s', rfl, h2⟩
theorem idx {l : List α} {l' : List β} {i : Nat} {Q : α → σ → β → τ → Prop}
    (h : ∀ a, l[i]? = some a → ∃ b, l'[i]? = some b ∧ Q a s b s')
    (hn : k → l[i]? = none → l'[i]? = none) : Twin k (M.idx l i) (M.idx l' i) s s' Q := by
  unfold Twin M.idx
  rcases ha : l[i]? with _ | a
  · exact fun hk => ⟨s', by rw [hn hk ha]⟩
  · obtain ⟨b, hb, h2⟩ := h a ha
    exact ⟨b, s', by rw [hb], h2⟩

/-- The ends of two runs. -/
theorem same {m : M σ α} {m' : M τ α} (h : Twin True m m' s s' fun a _ b _ => a = b) :
    (m' s').1 = (m s).1 := by
  unfold Twin at h
  rcases hm : m s with ⟨(a | e | p | _), t⟩
  · rw [hm] at h
    obtain ⟨b, t', h1, rfl⟩ := h
    rw [h1]
  all_goals
    rw [hm] at h
    obtain ⟨t', h1⟩ := h trivial
    rw [h1]

end

section
variable {k : Prop} {d d' : Decoder} {rd : List UInt8}

theorem getDec {Q : Decoder → H → Decoder → H → Prop} (h : Q d ⟨d, rd⟩ d' ⟨d', rd⟩) :
    Twin k getDec getDec ⟨d, rd⟩ ⟨d', rd⟩ Q := ⟨_, _, rfl, h⟩
theorem modDec {f f' : Decoder → Decoder} {Q : Unit → H → Unit → H → Prop}
    (h : Q () ⟨f d, rd⟩ () ⟨f' d', rd⟩) :
    Twin k (modDec f) (modDec f') ⟨d, rd⟩ ⟨d', rd⟩ Q := ⟨_, _, rfl, h⟩
theorem modDec' (I : Decoder → Decoder → Prop) {f f' : Decoder → Decoder}
    {Q : Unit → H → Unit → H → Prop} (h : I (f d) (f' d'))
    (hQ : ∀ e e', I e e' → Q () ⟨e, rd⟩ () ⟨e', rd⟩) :
    Twin k (Zune.modDec f) (Zune.modDec f') ⟨d, rd⟩ ⟨d', rd⟩ Q := ⟨_, _, rfl, hQ _ _ h⟩
theorem readByte {Q : UInt8 → H → UInt8 → H → Prop} (h : ∀ b r, Q b ⟨d, r⟩ b ⟨d', r⟩) :
    Twin k readByte readByte ⟨d, rd⟩ ⟨d', rd⟩ Q := by
  rcases rd with _ | ⟨b, r⟩
  · exact fun _ => ⟨_, rfl⟩
  · exact ⟨_, _, rfl, h b r⟩
theorem readU16 {e : DecodeErr} {Q : UInt16 → H → UInt16 → H → Prop}
    (h : ∀ b r, Q b ⟨d, r⟩ b ⟨d', r⟩) :
    Twin k (readU16 e) (readU16 e) ⟨d, rd⟩ ⟨d', rd⟩ Q := by
  rcases rd with _ | ⟨b, _ | ⟨b', r⟩⟩
  · exact fun _ => ⟨_, rfl⟩
  · exact fun _ => ⟨_, rfl⟩
  · exact ⟨_, _, rfl, h _ r⟩
theorem readExact {n : Nat} {e : DecodeErr} {Q : List UInt8 → H → List UInt8 → H → Prop}
    (h : ∀ b r, Q b ⟨d, r⟩ b ⟨d', r⟩) :
    Twin k (readExact n e) (readExact n e) ⟨d, rd⟩ ⟨d', rd⟩ Q := by
  unfold Twin Zune.readExact
  dsimp only
  by_cases hn : rd.length < n
  · rw [if_pos hn, if_pos hn]
    exact fun _ => ⟨_, rfl⟩
  · rw [if_neg hn, if_neg hn]
    exact ⟨_, _, rfl, h _ _⟩
theorem consume {n : Nat} {Q : Unit → H → Unit → H → Prop} (h : ∀ r, Q () ⟨d, r⟩ () ⟨d', r⟩) :
    Twin k (consume n) (consume n) ⟨d, rd⟩ ⟨d', rd⟩ Q := ⟨_, _, rfl, h _⟩
theorem skipSegment {Q : Unit → H → Unit → H → Prop} (h : ∀ r, Q () ⟨d, r⟩ () ⟨d', r⟩) :
    Twin k skipSegment skipSegment ⟨d, rd⟩ ⟨d', rd⟩ Q := by
  unfold Zune.skipSegment
  refine .bind (.readU16 fun len r => ?_)
  exact .ite Iff.rfl (fun _ => .throw) fun _ => .consume h
end
end Twin

/-! ### The part of the decoder that the header parser looks at -/

/-- The options that the header parser looks at. -/
def headOpts (o : Options) : Bool × Nat × Nat := (o.getStrictMode, o.getMaxWidth, o.getMaxHeight)

/-- The fields that decide how the header parser ends. -/
def headCore (d : Decoder) : List (Option (List Nat)) × UInt8 × List UInt8 × (Bool × Nat × Nat) :=
  (d.qtTables, d.info.components, d.components.map (·.id), headOpts d.options)

/-- The relation looks only at those fields. -/
def Loose (R : Decoder → Decoder → Prop) : Prop :=
  ∀ d d' e e', headCore e = headCore d → headCore e' = headCore d' → R d d' → R e e'

variable {k : Prop} {R : Decoder → Decoder → Prop}

/-- Both runs have read as much and the decoders are still related. -/
def Both (R : Decoder → Decoder → Prop) : Unit → H → Unit → H → Prop :=
  fun _ t _ t' => t'.rd = t.rd ∧ R t.dec t'.dec

theorem new_none {bits values : List Nat} {isDc p q : Bool}
    (h : HuffmanTable.new bits values isDc p = none) :
    HuffmanTable.new bits values isDc q = none := by
  rcases h1 : HuffmanTable.new bits values isDc q with _ | t
  · rfl
  · obtain ⟨-, -, t', h2, -⟩ := new_flag (q := p) h1
    rw [h] at h2
    simp at h2

theorem twin_dhtLoop (hR : Loose R) : ∀ (fuel len : Nat) (d d' : Decoder) (rd : List UInt8), R d d' →
    Twin k (parseHuffmanLoop fuel len) (parseHuffmanLoop fuel len) ⟨d, rd⟩ ⟨d', rd⟩
      fun a t b t' => a = b ∧ Both R () t () t'
  | 0, len, d, d', rd, h => by
    unfold parseHuffmanLoop
    exact .ite Iff.rfl (fun _ => .diverge) fun _ => .pure ⟨rfl, rfl, h⟩
  | fuel + 1, len, d, d', rd, h => by
    unfold parseHuffmanLoop
    refine .ite Iff.rfl (fun _ => ?_) fun _ => .pure ⟨rfl, rfl, h⟩
    refine .bind (.readByte fun info r => ?_)
    dsimp only
    refine .ite Iff.rfl (fun _ => .throw) fun hi => ?_
    refine .ite Iff.rfl (fun _ => .throw) fun hk => ?_
    refine .bind (.readExact fun counts r => ?_)
    refine .ite Iff.rfl (fun _ => .throw) fun _ => ?_
    refine .ite Iff.rfl (fun _ => .throw) fun _ => ?_
    refine .bind (.readExact fun syms r => ?_)
    refine .bind (.getDec ?_)
    refine .bind (.okOr (fun t ht => ?_) fun _ => new_none)
    obtain ⟨-, -, t', ht', -⟩ := new_flag (q := d'.isProgressive) ht
    refine ⟨t', ht', ?_⟩
    refine .bind (.modDec ?_)
    by_cases h0 : (info >>> 4).toNat = 0
    · simp only [if_pos h0]
      exact twin_dhtLoop hR _ _ _ _ _ (hR d d' _ _ rfl rfl h)
    · simp only [if_neg h0]
      exact twin_dhtLoop hR _ _ _ _ _ (hR d d' _ _ rfl rfl h)

theorem twin_dht (hR : Loose R) {d d' : Decoder} {rd : List UInt8} (h : R d d') :
    Twin k parseHuffman parseHuffman ⟨d, rd⟩ ⟨d', rd⟩ (Both R) := by
  unfold parseHuffman
  refine .bind (.readU16 fun len r => ?_)
  refine .ite Iff.rfl (fun _ => .throw) fun _ => ?_
  refine .bind ((twin_dhtLoop hR _ _ _ _ _ h).mono ?_)
  rintro a t b t' ⟨rfl, e⟩
  exact .failIf e

/-- The relation is kept when both runs read the same quantization table. -/
def Tabled (R : Decoder → Decoder → Prop) : Prop :=
  ∀ d d' i t, R d d' → R { d with qtTables := d.qtTables.set i (some t) }
    { d' with qtTables := d'.qtTables.set i (some t) }

theorem twin_dqtLoop (hR : Tabled R) : ∀ (fuel len : Nat) (d d' : Decoder) (rd : List UInt8), R d d' →
    Twin k (parseDqtLoop fuel len) (parseDqtLoop fuel len) ⟨d, rd⟩ ⟨d', rd⟩ (Both R)
  | 0, len, d, d', rd, h => by
    unfold parseDqtLoop
    exact .ite Iff.rfl (fun _ => .diverge) fun _ => .pure ⟨rfl, h⟩
  | fuel + 1, len, d, d', rd, h => by
    unfold parseDqtLoop
    refine .ite Iff.rfl (fun _ => ?_) fun _ => .pure ⟨rfl, h⟩
    refine .bind (.readByte fun info r => ?_)
    dsimp only
    refine .ite Iff.rfl (fun _ => .throw) fun hi => ?_
    refine .ite Iff.rfl (fun _ => ?_) fun hk => .throw
    refine .bind (.readExact fun counts r => ?_)
    refine .ite Iff.rfl (fun _ => .throw) fun _ => ?_
    refine .bind (.modDec ?_)
    exact twin_dqtLoop hR _ _ _ _ _ (hR _ _ _ _ h)

theorem twin_dqt (hR : Tabled R) {d d' : Decoder} {rd : List UInt8} (h : R d d') :
    Twin k parseDqt parseDqt ⟨d, rd⟩ ⟨d', rd⟩ (Both R) := by
  unfold parseDqt
  refine .bind (.readU16 fun len r => ?_)
  exact .ite Iff.rfl (fun _ => .throw) fun _ => twin_dqtLoop hR _ _ _ _ _ h

/-! ### Frame headers -/

theorem twin_components {d d' : Decoder} : ∀ (n : Nat) (rd : List UInt8),
    Twin k (readComponents n) (readComponents n) ⟨d, rd⟩ ⟨d', rd⟩
      fun a t b t' => a = b ∧ t'.rd = t.rd ∧ t.dec = d ∧ t'.dec = d'
  | 0, rd => .pure ⟨rfl, rfl, rfl, rfl⟩
  | n + 1, rd => by
    unfold readComponents
    refine .bind (.readExact fun t r => ?_)
    split
    · refine .bind (.ofOut fun c _ => ?_)
      refine .bind ((twin_components n r).mono ?_)
      rintro a ⟨e, r1⟩ b ⟨e', r2⟩ ⟨rfl, h1, h2, h3⟩
      exact .pure ⟨rfl, h1, h2, h3⟩
    · exact .panic

/-- What the second run knows of the quantization tables of the first. -/
def More (q q' : List (Option (List Nat))) : Prop :=
  ∀ (i : Nat) x, q[i]? = some (some x) → ∃ y, q'[i]? = some (some y)

theorem twin_setup : ∀ (cs : List Component) (d d' : Decoder) (rd : List UInt8),
    d'.qtTables.length = d.qtTables.length → (k → d'.qtTables = d.qtTables) → More d.qtTables d'.qtTables →
    headOpts d'.options = headOpts d.options → d'.info.components = d.info.components →
    Twin k (setupComponents cs) (setupComponents cs) ⟨d, rd⟩ ⟨d', rd⟩
      fun a t b t' => b.map (·.id) = a.map (·.id) ∧ t'.rd = t.rd ∧
        headOpts t'.dec.options = headOpts t.dec.options ∧
        t'.dec.info.components = t.dec.info.components
  | [], d, d', rd, _, _, _, h, h' => .pure ⟨rfl, rfl, h, h'⟩
  | c :: cs, d, d', rd, h0, h1, h2, h3, h4 => by
    unfold setupComponents
    refine .bind (.modDec ?_)
    refine .bind (.getDec ?_)
    refine .bind (.idx (fun q hq => ?_) fun hk => ?_)
    · have hl : c.quantTableNumber < d.qtTables.length := by
        by_contra hn
        rw [List.getElem?_eq_none (by dsimp only; omega)] at hq
        simp at hq
      rcases q with _ | q
      · by_cases hk : k
        · have h1 := h1 hk
          refine ⟨none, by dsimp only at hq ⊢; rw [h1]; exact hq, ?_⟩
          exact .bind (.okOr (fun a ha => by simp at ha) fun _ h => h)
        · rcases hq' : d'.qtTables[c.quantTableNumber]? with _ | q'
          · rw [List.getElem?_eq_none_iff] at hq'
            omega
          · refine ⟨q', rfl, ?_⟩
            exact .bind (.okOr (fun a ha => by simp at ha) fun hk' => absurd hk' hk)
      · obtain ⟨y, hy⟩ := h2 _ _ hq
        refine ⟨some y, hy, ?_⟩
        refine .bind (.okOr (fun a _ => ⟨y, rfl, ?_⟩) fun _ h => by simp at h)
        refine .bind ((twin_setup cs _ _ _ ?_ ?_ ?_ ?_ ?_).mono ?_)
        · exact h0
        · exact h1
        · exact h2
        · exact h3
        · exact h4
        rintro a t b t' ⟨e1, e2, e3, e4⟩
        refine .pure ⟨?_, e2, e3, e4⟩
        simp only [List.map_cons, e1]
    · dsimp only
      rw [h1 hk]
      exact id

/-- The decoders agree in the fields that the header parser looks at. -/
def HeadAlike (d d' : Decoder) : Prop := headCore d' = headCore d

theorem alike_loose : Loose HeadAlike := fun _ _ _ _ h h' e => h'.trans (e.trans h.symm)

theorem alike_tabled : Tabled HeadAlike := by
  intro d d' i t h
  simp only [HeadAlike, headCore, Prod.mk.injEq] at h ⊢
  obtain ⟨h1, h2, h3, h4⟩ := h
  exact ⟨by rw [h1], h2, h3, h4⟩

theorem twin_sof (sof : SofMarker) {d d' : Decoder} {rd : List UInt8}
    (h0 : d'.qtTables.length = d.qtTables.length) (h1 : k → d'.qtTables = d.qtTables)
    (h2 : More d.qtTables d'.qtTables) (h3 : headOpts d'.options = headOpts d.options) :
    Twin k (parseStartOfFrame sof) (parseStartOfFrame sof) ⟨d, rd⟩ ⟨d', rd⟩ (Both HeadAlike) := by
  unfold parseStartOfFrame
  refine .bind (.readU16 fun length r => ?_)
  refine .bind (.readByte fun precision r => ?_)
  refine .ite Iff.rfl (fun _ => .throw) fun _ => ?_
  refine .bind (.modDec ?_)
  refine .bind (.readU16 fun h r => ?_)
  refine .bind (.modDec ?_)
  refine .bind (.readU16 fun w r => ?_)
  refine .bind (.modDec ?_)
  refine .bind (.getDec ?_)
  have o := h3
  simp only [headOpts, Prod.mk.injEq] at o
  dsimp only
  refine .ite (by rw [o.2.1]) (fun _ => .throw) fun _ => ?_
  refine .ite (by rw [o.2.2]) (fun _ => .throw) fun _ => ?_
  refine .ite Iff.rfl (fun _ => .throw) fun _ => ?_
  refine .bind (.readByte fun n r => ?_)
  refine .ite Iff.rfl (fun _ => .throw) fun _ => ?_
  refine .ite Iff.rfl (fun _ => .throw) fun _ => ?_
  refine .bind (.modDec' (fun e e' : Decoder => e'.qtTables.length = e.qtTables.length ∧
    (k → e'.qtTables = e.qtTables) ∧ More e.qtTables e'.qtTables ∧
    headOpts e'.options = headOpts e.options) ?_ ?_)
  · by_cases hn : n = 1
    · simp only [if_pos hn]
      exact ⟨h0, h1, h2, h3⟩
    · simp only [if_neg hn]
      exact ⟨h0, h1, h2, h3⟩
  clear h0 h1 h2 h3 o
  rintro d d' ⟨h0, h1, h2, h3⟩
  refine .bind (.modDec ?_)
  refine .bind ((twin_components _ _).mono ?_)
  rintro comps ⟨e, r⟩ comps' ⟨e', r'⟩ ⟨rfl, e1, e2, e3⟩
  dsimp only at e1 e2 e3
  subst e1 e2 e3
  refine .bind (.modDec ?_)
  refine .bind ((twin_setup comps _ _ _ ?_ ?_ ?_ ?_ ?_).mono ?_)
  · exact h0
  · exact h1
  · exact h2
  · exact h3
  · rfl
  rintro a ⟨e, r⟩ b ⟨e', r'⟩ ⟨k1, k2, k3, k4⟩
  dsimp only at k1 k2 k3 k4
  subst k2
  refine .modDec ⟨rfl, ?_⟩
  simp only [HeadAlike, headCore, Prod.mk.injEq]
  exact ⟨trivial, k4, k1, k3⟩

/-! ### Scan headers -/

theorem twin_find {id : UInt8} {cs cs' : List Component} (hc : cs'.map (·.id) = cs.map (·.id))
    {s s' : H} : ∀ n j : Nat,
    Twin k (findComponent id cs n j) (findComponent id cs' n j) s s'
      fun a t b t' => a = b ∧ t = s ∧ t' = s'
  | 0, j => .pure ⟨rfl, rfl, rfl⟩
  | n + 1, j => by
    unfold findComponent
    have h : cs'[j]?.map (·.id) = cs[j]?.map (·.id) := by
      rw [← List.getElem?_map, ← List.getElem?_map, hc]
    refine .bind (.idx (fun c e => ?_) fun _ e => ?_)
    · rw [e] at h
      rcases e' : cs'[j]? with _ | c'
      · rw [e'] at h
        simp at h
      · rw [e'] at h
        simp only [Option.map_some, Option.some.injEq] at h
        refine ⟨c', rfl, ?_⟩
        exact .ite (by rw [h]) (fun _ => .pure ⟨rfl, rfl, rfl⟩) fun _ => twin_find hc n (j + 1)
    · rw [e] at h
      simpa using h

theorem twin_sosComponents : ∀ (n i : Nat) (seen : List Bool) (d d' : Decoder) (rd : List UInt8),
    HeadAlike d d' →
    Twin k (sosComponents n i seen) (sosComponents n i seen) ⟨d, rd⟩ ⟨d', rd⟩ (Both HeadAlike)
  | 0, i, seen, d, d', rd, h => .pure ⟨rfl, h⟩
  | n + 1, i, seen, d, d', rd, h => by
    unfold sosComponents
    have h' := h
    simp only [HeadAlike, headCore, Prod.mk.injEq] at h'
    obtain ⟨h1, h2, h3, h4⟩ := h'
    have hl : d'.components.length = d.components.length := by
      have := congrArg List.length h3
      simpa using this
    refine .bind (.readByte fun id r => ?_)
    refine .bind (.getDec ?_)
    refine .ite (by rw [hl]) (fun _ => .throw) fun _ => ?_
    refine .bind (.idx (fun s e => ⟨s, e, ?_⟩) fun _ e => e)
    refine .ite Iff.rfl (fun _ => .throw) fun _ => ?_
    refine .bind (.readByte fun y r => ?_)
    rw [h2]
    refine .bind ((twin_find h3 _ _).mono ?_)
    rintro j t j' t' ⟨rfl, rfl, rfl⟩
    refine .ite Iff.rfl (fun _ => .throw) fun _ => ?_
    refine .bind (.modDec ?_)
    refine twin_sosComponents _ _ _ _ _ _ ?_
    simp only [HeadAlike, headCore, Prod.mk.injEq]
    refine ⟨h1, h2, ?_, h4⟩
    refine List.ext_getElem? fun x => ?_
    have := congrArg (fun l : List UInt8 => l[x]?) h3
    simp only [List.getElem?_map, List.getElem?_modify] at this ⊢
    rcases ha : d.components[x]? with _ | a <;> rcases hb : d'.components[x]? with _ | b <;>
      rw [ha, hb] at this <;> simp at this ⊢
    split <;> exact this

theorem twin_sos {d d' : Decoder} {rd : List UInt8} (h : HeadAlike d d') :
    Twin k parseSos parseSos ⟨d, rd⟩ ⟨d', rd⟩ (Both HeadAlike) := by
  unfold parseSos
  have h' := h
  simp only [HeadAlike, headCore, Prod.mk.injEq] at h'
  obtain ⟨h1, h2, h3, h4⟩ := h'
  refine .bind (.readU16 fun ls r => ?_)
  refine .bind (.readByte fun ns r => ?_)
  refine .bind (.modDec ?_)
  refine .ite Iff.rfl (fun _ => .throw) fun _ => ?_
  refine .ite Iff.rfl (fun _ => .throw) fun _ => ?_
  refine .bind (.getDec ?_)
  refine .ite (by rw [h2]) (fun _ => .throw) fun _ => ?_
  refine .bind ((twin_sosComponents _ _ _ _ _ _ ?_).mono ?_)
  · exact alike_loose d d' _ _ rfl rfl h
  rintro _ ⟨e, r⟩ _ ⟨e', r'⟩ ⟨k1, k2⟩
  dsimp only at k1 k2
  subst k1
  refine .bind (.readByte fun ss r => ?_)
  refine .bind (.modDec ?_)
  refine .bind (.readByte fun se r => ?_)
  refine .bind (.modDec ?_)
  refine .bind (.readByte fun ba r => ?_)
  refine .bind (.modDec ?_)
  refine .ite Iff.rfl (fun _ => .throw) fun _ => ?_
  refine .bind (.modDec ?_)
  exact .failIf ⟨rfl, alike_loose e e' _ _ rfl rfl k2⟩

/-! ### Segments -/

/-- Segments other than frame and scan headers. -/
theorem twin_other (hR : Loose R) (hT : Tabled R) {m : Marker} (h0 : m ≠ .sof 0) (h2 : m ≠ .sof 2)
    (hs : m ≠ .sos) {d d' : Decoder} {rd : List UInt8} (h : R d d') :
    Twin k (parseMarkerInner m) (parseMarkerInner m) ⟨d, rd⟩ ⟨d', rd⟩ (Both R) := by
  unfold parseMarkerInner
  split
  · exact absurd rfl h0
  · exact absurd rfl h2
  · exact .throw
  · exact twin_dqt hT h
  · exact twin_dht hR h
  · exact absurd rfl hs
  · exact .throw
  · exact .throw
  · exact .throw
  · refine .bind (.readU16 fun len r => ?_)
    refine .ite Iff.rfl (fun _ => .throw) fun _ => ?_
    refine .bind (.readU16 fun ri r => ?_)
    exact .modDec ⟨rfl, hR d d' _ _ rfl rfl h⟩
  all_goals exact .skipSegment fun _ => ⟨rfl, h⟩

theorem twin_frame {d d' : Decoder} {rd : List UInt8} {m : Marker} (hm : m = .sof 0 ∨ m = .sof 2)
    (h0 : d'.qtTables.length = d.qtTables.length) (h1 : k → d'.qtTables = d.qtTables)
    (h2 : More d.qtTables d'.qtTables) (h3 : headOpts d'.options = headOpts d.options) :
    Twin k (parseMarkerInner m) (parseMarkerInner m) ⟨d, rd⟩ ⟨d', rd⟩ (Both HeadAlike) := by
  rcases hm with rfl | rfl
  · exact twin_sof _ h0 h1 h2 h3
  · exact .bind (.modDec (twin_sof _ (d := { d with isProgressive := true })
      (d' := { d' with isProgressive := true }) h0 h1 h2 h3))

theorem twin_inner {m : Marker} {d d' : Decoder} {rd : List UInt8} (h : HeadAlike d d') :
    Twin k (parseMarkerInner m) (parseMarkerInner m) ⟨d, rd⟩ ⟨d', rd⟩ (Both HeadAlike) := by
  have h' := h
  simp only [HeadAlike, headCore, Prod.mk.injEq] at h'
  obtain ⟨h1, h2, h3, h4⟩ := h'
  by_cases hm : m = .sof 0 ∨ m = .sof 2
  · exact twin_frame hm (by rw [h1]) (fun _ => h1) (fun i x e => ⟨x, by rw [h1]; exact e⟩) h4
  · by_cases hs : m = .sos
    · subst hs
      exact twin_sos h
    · exact twin_other alike_loose alike_tabled (fun e => hm (.inl e)) (fun e => hm (.inr e)) hs h

theorem twin_loop : ∀ (fuel : Nat) (last : UInt8) (count : Nat) (d d' : Decoder) (rd : List UInt8),
    HeadAlike d d' →
    Twin k (headerLoop fuel last count) (headerLoop fuel last count) ⟨d, rd⟩ ⟨d', rd⟩
      fun _ _ _ _ => True
  | 0, _, _, _, _, _, _ => .diverge
  | fuel + 1, last, count, d, d', rd, h => by
    unfold headerLoop
    refine .bind (.readByte fun m r => ?_)
    refine .bind (Twin.mono (Q := fun a t b t' => a = b ∧ Both HeadAlike () t () t') ?_ ?_)
    · unfold headerStep
      refine .ite Iff.rfl (fun _ => ?_) fun _ => .pure ⟨rfl, rfl, h⟩
      split
      · refine .bind ((twin_inner h).mono fun _ t _ t' e => ?_)
        exact .ite Iff.rfl (fun _ => .pure ⟨rfl, e⟩) fun _ => .pure ⟨rfl, e⟩
      · exact .bind (.skipSegment fun r => .pure ⟨rfl, rfl, h⟩)
    · rintro a ⟨e, r⟩ b ⟨e', r'⟩ ⟨rfl, k1, k2⟩
      dsimp only at k1 k2
      subst k1
      rcases a with _ | c
      · exact .pure trivial
      · refine .bind (.getDec ?_)
        have k3 := k2
        simp only [HeadAlike, headCore, headOpts, Prod.mk.injEq] at k3
        refine .ite (by rw [k3.2.2.2.1]) (fun _ => .throw) fun _ => ?_
        exact twin_loop fuel m (c + 1) _ _ _ k2

/-! ### What a failing run leaves -/

/-- The property holds after the computation, however it ends. -/
def Stays {α : Type} (P : Decoder → Prop) (m : M H α) : Prop := ∀ s, P s.dec → P (m s).2.dec

/-- The property holds after the computation if that does not succeed. -/
def Fails {α : Type} (P : Decoder → Prop) (m : M H α) : Prop :=
  ∀ s, P s.dec → (m s).1.isOk = false → P (m s).2.dec

namespace Stays
variable {α β : Type} {P : Decoder → Prop}
theorem bind {m : M H α} {f : α → M H β} (h : Stays P m) (h' : ∀ a, Stays P (f a)) :
    Stays P (m >>= f) := by
  intro s hs
  have := h s hs
  rw [M.bind_apply]
  rcases hm : m s with ⟨(a | e | p | _), t⟩ <;> rw [hm] at this
  · exact h' a t this
  all_goals exact this
theorem ite {c : Prop} [Decidable c] {m n : M H α} (h1 : Stays P m) (h2 : Stays P n) :
    Stays P (if c then m else n) := by
  by_cases h : c
  · rwa [if_pos h]
  · rwa [if_neg h]
theorem pure {a : α} : Stays P (Pure.pure a : M H α) := fun _ h => h
theorem throw {e : DecodeErr} : Stays P (M.throw e : M H α) := fun _ h => h
theorem panic {e : Site} : Stays P (M.panic e : M H α) := fun _ h => h
theorem diverge : Stays P (M.diverge : M H α) := fun _ h => h
theorem getDec : Stays P getDec := fun _ h => h
theorem failIf {c : Bool} {e : DecodeErr} : Stays P (M.failIf c e : M H Unit) := by
  intro s h
  cases c <;> exact h
theorem ofOut {o : Out α} : Stays P (M.ofOut o : M H α) := fun _ h => h
theorem okOr {o : Option α} {e : DecodeErr} : Stays P (M.okOr o e : M H α) := by
  intro s h
  cases o <;> exact h
theorem idx {l : List α} {i : Nat} : Stays P (M.idx l i : M H α) := by
  intro s h
  unfold M.idx
  split <;> exact h
theorem modDec {f : Decoder → Decoder} (h : ∀ d, P d → P (f d)) : Stays P (modDec f) :=
  fun _ hs => h _ hs
theorem readByte : Stays P readByte := by
  rintro ⟨d, _ | ⟨b, r⟩⟩ h <;> exact h
theorem readU16 {e : DecodeErr} : Stays P (readU16 e) := by
  rintro ⟨d, _ | ⟨b, _ | ⟨b', r⟩⟩⟩ h <;> exact h
theorem readExact {n : Nat} {e : DecodeErr} : Stays P (readExact n e) := by
  intro s h
  unfold Zune.readExact
  split <;> exact h
theorem skipSegment : Stays P skipSegment := by
  unfold Zune.skipSegment
  exact readU16.bind fun _ => .ite .throw fun _ h => h
theorem readComponents : ∀ n, Stays P (readComponents n)
  | 0 => .pure
  | n + 1 => by
    unfold Zune.readComponents
    refine .bind .readExact fun t => ?_
    split
    · exact .bind .ofOut fun _ => .bind (readComponents n) fun _ => .pure
    · exact .panic
end Stays

namespace Fails
variable {α β : Type} {P : Decoder → Prop}
theorem bind {m : M H α} {f : α → M H β} (h : Stays P m) (h' : ∀ a, Fails P (f a)) :
    Fails P (m >>= f) := by
  intro s hs
  have := h s hs
  rw [M.bind_apply]
  rcases hm : m s with ⟨(a | e | p | _), t⟩ <;> rw [hm] at this
  · exact h' a t this
  all_goals exact fun _ => this
theorem ite {c : Prop} [Decidable c] {m n : M H α} (h1 : Fails P m) (h2 : Fails P n) :
    Fails P (if c then m else n) := by
  by_cases h : c
  · rwa [if_pos h]
  · rwa [if_neg h]
theorem throw {e : DecodeErr} : Fails P (M.throw e : M H α) := fun _ h _ => h
theorem modDec {f : Decoder → Decoder} : Fails P (modDec f) := fun _ _ h => by simp [Zune.modDec, Out.isOk] at h
end Fails

theorem stays_setup {P : Decoder → Prop} (hP : ∀ (d : Decoder) (a b c e f g : Nat) (i : Bool), P d →
      P { d with hMax := a, vMax := b, mcuWidth := c, mcuHeight := e, mcuX := f, mcuY := g
                 interleaved := i }) : ∀ cs : List Component, Stays P (setupComponents cs)
  | [] => .pure
  | c :: cs => by
    unfold setupComponents
    refine .bind (.modDec fun d h => hP _ _ _ _ _ _ _ _ h) fun _ => ?_
    exact .bind .getDec fun _ => .bind .idx fun _ => .bind .okOr fun _ =>
      .bind (stays_setup hP cs) fun _ => .pure

/-- A frame header that is refused leaves the quantization tables as they are. -/
theorem fails_sof {q : List (Option (List Nat))} (sof : SofMarker) :
    Fails (fun d => d.qtTables = q) (parseStartOfFrame sof) := by
  unfold parseStartOfFrame
  refine .bind .readU16 fun _ => .bind .readByte fun _ => .ite .throw ?_
  refine .bind (.modDec fun _ h => h) fun _ => .bind .readU16 fun _ => ?_
  refine .bind (.modDec fun _ h => h) fun _ => .bind .readU16 fun _ => ?_
  refine .bind (.modDec fun _ h => h) fun _ => .bind .getDec fun _ => ?_
  refine .ite .throw (.ite .throw (.ite .throw ?_))
  refine .bind .readByte fun _ => .ite .throw (.ite .throw ?_)
  refine .bind (.modDec fun d h => ?_) fun _ => ?_
  · split <;> exact h
  refine .bind (.modDec fun _ h => h) fun _ => .bind (.readComponents _) fun _ => ?_
  refine .bind (.modDec fun _ h => h) fun _ => ?_
  exact .bind (stays_setup (fun _ _ _ _ _ _ _ _ h => h) _) fun _ => .modDec

theorem fails_frame {q : List (Option (List Nat))} {m : Marker} (hm : m = .sof 0 ∨ m = .sof 2) :
    Fails (fun d => d.qtTables = q) (parseMarkerInner m) := by
  rcases hm with rfl | rfl
  · exact fails_sof _
  · exact .bind (.modDec fun _ h => h) fun _ => fails_sof _

/-- What every run keeps. -/
def HeadSame (o : Options) (d : Decoder) : Prop :=
  headOpts d.options = headOpts o ∧ d.qtTables.length = 4

theorem stays_dht {P : Decoder → Prop} (hP : ∀ (d : Decoder) a b, P d →
    P { d with dcTables := a, acTables := b }) : ∀ fuel len, Stays P (parseHuffmanLoop fuel len)
  | 0, _ => by
    unfold parseHuffmanLoop
    exact .ite .diverge .pure
  | fuel + 1, len => by
    unfold parseHuffmanLoop
    refine .ite (.bind .readByte fun _ => ?_) .pure
    dsimp only
    refine .ite .throw (.ite .throw ?_)
    refine .bind .readExact fun _ => .ite .throw (.ite .throw ?_)
    refine .bind .readExact fun _ => .bind .getDec fun _ => .bind .okOr fun _ => ?_
    refine .bind (.modDec fun d h => ?_) fun _ => stays_dht hP _ _
    split
    · exact hP d _ d.acTables h
    · exact hP d d.dcTables _ h

theorem stays_dqt {P : Decoder → Prop} (hP : ∀ (d : Decoder) i t, P d →
    P { d with qtTables := d.qtTables.set i t }) : ∀ fuel len, Stays P (parseDqtLoop fuel len)
  | 0, _ => by
    unfold parseDqtLoop
    exact .ite .diverge .pure
  | fuel + 1, len => by
    unfold parseDqtLoop
    refine .ite (.bind .readByte fun _ => ?_) .pure
    dsimp only
    refine .ite .throw (.ite (.bind .readExact fun _ => ?_) .throw)
    exact .ite .throw (.bind (.modDec fun d h => hP d _ _ h) fun _ => stays_dqt hP _ _)

theorem stays_sof (o : Options) (sof : SofMarker) : Stays (HeadSame o) (parseStartOfFrame sof) := by
  unfold parseStartOfFrame
  refine .bind .readU16 fun _ => .bind .readByte fun _ => .ite .throw ?_
  refine .bind (.modDec fun _ h => h) fun _ => .bind .readU16 fun _ => ?_
  refine .bind (.modDec fun _ h => h) fun _ => .bind .readU16 fun _ => ?_
  refine .bind (.modDec fun _ h => h) fun _ => .bind .getDec fun _ => ?_
  refine .ite .throw (.ite .throw (.ite .throw ?_))
  refine .bind .readByte fun _ => .ite .throw (.ite .throw ?_)
  refine .bind (.modDec fun d h => ?_) fun _ => ?_
  · split <;> exact h
  refine .bind (.modDec fun _ h => h) fun _ => .bind (.readComponents _) fun _ => ?_
  refine .bind (.modDec fun _ h => h) fun _ => ?_
  exact .bind (stays_setup (fun _ _ _ _ _ _ _ _ h => h) _) fun _ => .modDec fun _ h => ⟨h.1, rfl⟩

theorem stays_find {P : Decoder → Prop} {id : UInt8} {cs : List Component} : ∀ n j : Nat,
    Stays P (findComponent id cs n j)
  | 0, _ => .pure
  | n + 1, j => by
    unfold findComponent
    exact .bind .idx fun _ => .ite .pure (stays_find n (j + 1))

/-- Scan headers leave these fields alone. -/
def Scanned (P : Decoder → Prop) : Prop :=
  ∀ d e : Decoder, e.info = d.info → e.options = d.options → e.qtTables = d.qtTables → P d → P e

theorem stays_sosComponents {P : Decoder → Prop} (hP : Scanned P) : ∀ (n i : Nat) (seen : List Bool),
    Stays P (sosComponents n i seen)
  | 0, _, _ => .pure
  | n + 1, i, seen => by
    unfold sosComponents
    refine .bind .readByte fun _ => .bind .getDec fun _ => .ite .throw (.bind .idx fun _ => ?_)
    refine .ite .throw (.bind .readByte fun _ => .bind (stays_find _ _) fun _ => .ite .throw ?_)
    exact .bind (.modDec fun d h => hP d _ rfl rfl rfl h) fun _ => stays_sosComponents hP _ _ _

theorem stays_sos {P : Decoder → Prop} (hP : Scanned P) : Stays P parseSos := by
  unfold parseSos
  refine .bind .readU16 fun _ => .bind .readByte fun _ => ?_
  refine .bind (.modDec fun d h => hP d _ rfl rfl rfl h) fun _ => ?_
  refine .ite .throw (.ite .throw (.bind .getDec fun _ => .ite .throw ?_))
  refine .bind (stays_sosComponents hP _ _ _) fun _ => ?_
  refine .bind .readByte fun _ => .bind (.modDec fun d h => hP d _ rfl rfl rfl h) fun _ => ?_
  refine .bind .readByte fun _ => .bind (.modDec fun d h => hP d _ rfl rfl rfl h) fun _ => ?_
  refine .bind .readByte fun _ => .bind (.modDec fun d h => hP d _ rfl rfl rfl h) fun _ => ?_
  exact .ite .throw (.bind (.modDec fun d h => hP d _ rfl rfl rfl h) fun _ => .failIf)

theorem stays_inner (o : Options) (m : Marker) : Stays (HeadSame o) (parseMarkerInner m) := by
  unfold parseMarkerInner
  split
  · exact stays_sof o _
  · exact .bind (.modDec fun _ h => h) fun _ => stays_sof o _
  · exact .throw
  · unfold parseDqt
    refine .bind .readU16 fun _ => .ite .throw (stays_dqt (fun d i t h => ⟨h.1, ?_⟩) _ _)
    rw [List.length_set]
    exact h.2
  · unfold parseHuffman
    exact .bind .readU16 fun _ => .ite .throw (.bind (stays_dht (fun _ _ _ h => h) _ _) fun _ => .failIf)
  · exact stays_sos fun d e _ h1 h2 h => ⟨by rw [h1]; exact h.1, by rw [h2]; exact h.2⟩
  · exact .throw
  · exact .throw
  · exact .throw
  · exact .bind .readU16 fun _ => .ite .throw (.bind .readU16 fun _ => .modDec fun _ h => h)
  all_goals exact .skipSegment

theorem stays_loop (o : Options) : ∀ (fuel : Nat) (last : UInt8) (count : Nat),
    Stays (HeadSame o) (headerLoop fuel last count)
  | 0, _, _ => .diverge
  | fuel + 1, last, count => by
    unfold headerLoop
    refine .bind .readByte fun m => .bind ?_ fun a => ?_
    · unfold headerStep
      refine .ite ?_ .pure
      split
      · exact .bind (stays_inner o _) fun _ => .ite .pure .pure
      · exact .bind .skipSegment fun _ => .pure
    · rcases a with _ | c
      · exact .pure
      · exact .bind .getDec fun _ => .ite .throw (stays_loop o fuel m (c + 1))

theorem stays_headers (o : Options) : Stays (HeadSame o) decodeHeaders := by
  intro s h
  exact Stays.bind .readU16 (fun _ => .ite .throw (stays_loop o _ _ _)) s h

/-! ### Before the first frame header -/

/-- How the second run (`d'`) compares with the first (`d`), which will leave `c`, as long as no
frame header has been accepted. -/
structure Before (c d d' : Decoder) : Prop where
  opts : headOpts d'.options = headOpts d.options
  zero : d.info.components = 0
  info : d'.info.components = c.info.components
  len : d'.qtTables.length = d.qtTables.length
  qt : ∀ i : Nat, d'.qtTables[i]? = d.qtTables[i]? ∨
    (d.qtTables[i]? = some none ∧ d'.qtTables[i]? = c.qtTables[i]?)

theorem before_loose (c : Decoder) : Loose (Before c) := by
  intro d d' e e' h h' B
  simp only [headCore, Prod.mk.injEq] at h h'
  obtain ⟨h1, h2, h3, h4⟩ := h
  obtain ⟨k1, k2, k3, k4⟩ := h'
  exact ⟨by rw [h4, k4]; exact B.opts, by rw [h2]; exact B.zero, by rw [k2]; exact B.info,
    by rw [h1, k1]; exact B.len, by rw [h1, k1]; exact B.qt⟩

theorem before_tabled (c : Decoder) : Tabled (Before c) := by
  intro d d' i t B
  refine ⟨B.opts, B.zero, B.info, ?_, fun j => ?_⟩
  · simp only [List.length_set]
    exact B.len
  · dsimp only
    rw [List.getElem?_set, List.getElem?_set, B.len]
    by_cases h : i = j
    · rw [if_pos h, if_pos h]
      exact Or.inl rfl
    · rw [if_neg h, if_neg h]
      exact B.qt j

theorem Before.more {c d d' : Decoder} (B : Before c d d') : More d.qtTables d'.qtTables := by
  intro i x h
  rcases B.qt i with e | ⟨e, -⟩
  · exact ⟨x, e.trans h⟩
  · rw [h] at e
    simp at e

theorem twin_sos_zero {d d' : Decoder} {rd : List UInt8} (h : d.info.components = 0)
    (h' : d'.info.components = 0) :
    Twin True parseSos parseSos ⟨d, rd⟩ ⟨d', rd⟩ fun _ _ _ _ => False := by
  unfold parseSos
  refine .bind (.readU16 fun ls r => ?_)
  refine .bind (.readByte fun ns r => ?_)
  refine .bind (.modDec ?_)
  refine .ite Iff.rfl (fun _ => .throw) fun _ => ?_
  refine .ite Iff.rfl (fun _ => .throw) fun _ => ?_
  refine .bind (.getDec ?_)
  exact .ite (by rw [h, h']) (fun _ => .throw) fun hn => absurd h hn

/-- The end of a computation that does not succeed. -/
theorem Twin.fail {σ τ α : Type} {m : M σ α} {m' : M τ α} {s t : σ} {s' : τ}
    {Q : α → σ → α → τ → Prop} {r : Out α} (h : Twin True m m' s s' Q) (e : m s = (r, t))
    (hr : r.isOk = false) : ∃ t', m' s' = (r, t') := by
  unfold Twin at h
  rw [e] at h
  rcases r with (a | e | p | _)
  · simp [Out.isOk] at hr
  all_goals exact h trivial

/-- A failing first part. -/
theorem bind_fail {σ β : Type} {f : Unit → M σ β} {g : β → M σ Unit} {p : M σ Unit} {s t : σ}
    {r : Out Unit} (h : p s = (r, t)) (hr : r.isOk = false) : ((p >>= f) >>= g) s = (r, t) := by
  rcases r with (a | e | p | _)
  · simp [Out.isOk] at hr
  · rw [M.bind_err (M.bind_err h)]
  · rw [M.bind_panic (M.bind_panic h)]
  · rw [M.bind_diverge (M.bind_diverge h)]

/-- A segment before the first frame header: it fails in both runs in the same way, or it is read
in both runs. `c` is the decoder that is left if it fails. -/
theorem before_inner {m : Marker} {d d' : Decoder} {rd : List UInt8} {r : Out Unit} {t : H}
    (e : parseMarkerInner m ⟨d, rd⟩ = (r, t)) (hr : r.isOk = false) (B : Before t.dec d d') :
    ∃ t', parseMarkerInner m ⟨d', rd⟩ = (r, t') := by
  by_cases hm : m = .sof 0 ∨ m = .sof 2
  · have hq : t.dec.qtTables = d.qtTables := by
      have := fails_frame (q := d.qtTables) hm ⟨d, rd⟩ rfl
      rw [e] at this
      exact this hr
    have hq' : d'.qtTables = d.qtTables := by
      refine List.ext_getElem? fun i => ?_
      rcases B.qt i with h | ⟨-, h⟩
      · exact h
      · rw [h, hq]
    exact (twin_frame hm B.len (fun _ => hq') B.more B.opts).fail e hr
  · by_cases hs : m = .sos
    · subst hs
      have hz : t.dec.info.components = 0 := by
        have := stays_sos (P := fun d => d.info.components = 0)
          (fun d e h _ _ hd => (congrArg ImageInfo.components h).trans hd) ⟨d, rd⟩ B.zero
        rw [show parseSos ⟨d, rd⟩ = (r, t) from e] at this
        exact this
      exact (twin_sos_zero B.zero (B.info.trans hz)).fail e hr
    · exact (twin_other (before_loose _) (before_tabled _) (fun e => hm (.inl e))
        (fun e => hm (.inr e)) hs B).fail e hr

/-- A run that fails, fails again. -/
theorem before_loop : ∀ (fuel : Nat) (last : UInt8) (count : Nat) (d d' : Decoder) (rd : List UInt8)
    (r : Out Unit) (t : H), headerLoop fuel last count ⟨d, rd⟩ = (r, t) → r.isOk = false →
    Before t.dec d d' → ∃ t', headerLoop fuel last count ⟨d', rd⟩ = (r, t')
  | 0, _, _, _, _, _, _, _, e, _, _ => by
    simp only [headerLoop, M.diverge_apply, Prod.mk.injEq] at e
    obtain ⟨rfl, -⟩ := e
    exact ⟨_, rfl⟩
  | fuel + 1, last, count, d, d', [], r, t, e, hr, B => by
    unfold headerLoop at e ⊢
    rw [M.bind_err (show readByte ⟨d, []⟩ = (.err .format, ⟨d, []⟩) from rfl)] at e
    rw [M.bind_err (show readByte ⟨d', []⟩ = (.err .format, ⟨d', []⟩) from rfl)]
    simp only [Prod.mk.injEq] at e
    exact ⟨_, by rw [e.1]⟩
  | fuel + 1, last, count, d, d', m :: rd, r, t, e, hr, B => by
    unfold headerLoop at e ⊢
    rw [M.bind_ok (show readByte ⟨d, m :: rd⟩ = (.ok m, ⟨d, rd⟩) from rfl)] at e
    rw [M.bind_ok (show readByte ⟨d', m :: rd⟩ = (.ok m, ⟨d', rd⟩) from rfl)]
    -- what follows a segment that was read
    have next : ∀ (c : Nat) (e e' : Decoder) (rd : List UInt8), Before t.dec e e' →
        (do
          let d ← getDec
          if d.options.getStrictMode ∧ c + 1 > 3 then M.throw .formatStatic
          else headerLoop fuel m (c + 1) : M H Unit) ⟨e, rd⟩ = (r, t) →
        ∃ t', (do
          let d ← getDec
          if d.options.getStrictMode ∧ c + 1 > 3 then M.throw .formatStatic
          else headerLoop fuel m (c + 1) : M H Unit) ⟨e', rd⟩ = (r, t') := by
      intro c e e' rd B h
      rw [M.bind_ok (show getDec ⟨e, rd⟩ = (.ok e, ⟨e, rd⟩) from rfl)] at h
      rw [M.bind_ok (show getDec ⟨e', rd⟩ = (.ok e', ⟨e', rd⟩) from rfl)]
      have o := B.opts
      simp only [headOpts, Prod.mk.injEq] at o
      rw [o.1]
      by_cases hs : e.options.getStrictMode = true ∧ c + 1 > 3
      · rw [if_pos hs] at h ⊢
        simp only [M.throw_apply, Prod.mk.injEq] at h
        exact ⟨_, by rw [← h.1]; rfl⟩
      · rw [if_neg hs] at h ⊢
        exact before_loop fuel m (c + 1) e e' rd r t h hr B
    by_cases hl : last = 0xFF
    · rcases hk : Marker.fromU8 m with _ | mk
      · have hs : headerStep last count m = (skipSegment >>= fun _ => pure (some 0)) := by
          unfold headerStep
          rw [if_pos hl, hk]
        rw [hs] at e ⊢
        have T : ∀ c, Before c d d' →
            Twin True skipSegment skipSegment ⟨d, rd⟩ ⟨d', rd⟩ (Both (Before c)) :=
          fun c B => .skipSegment fun _ => ⟨rfl, B⟩
        rcases hp : skipSegment ⟨d, rd⟩ with ⟨r1, t1⟩
        by_cases h1 : r1.isOk = false
        · rw [bind_fail hp h1] at e
          simp only [Prod.mk.injEq] at e
          obtain ⟨rfl, rfl⟩ := e
          obtain ⟨t', e'⟩ := (T _ B).fail hp h1
          exact ⟨t', bind_fail e' h1⟩
        · rcases r1 with (u | _ | _ | _) <;> simp [Out.isOk] at h1
          have T := T _ B
          unfold Twin at T
          rw [hp] at T
          obtain ⟨_, ⟨e2, r2⟩, T1, T2, T3⟩ := T
          rcases t1 with ⟨e1, r1⟩
          dsimp only at T2 T3
          subst T2
          rw [M.bind_ok (show (skipSegment >>= fun _ => (pure (some 0) : M H (Option Nat)))
            ⟨d, rd⟩ = (.ok (some 0), ⟨e1, r2⟩) from M.bind_ok hp)] at e
          rw [M.bind_ok (show (skipSegment >>= fun _ => (pure (some 0) : M H (Option Nat)))
            ⟨d', rd⟩ = (.ok (some 0), ⟨e2, r2⟩) from M.bind_ok T1)]
          exact next 0 e1 e2 r2 T3 e
      · have hs : headerStep last count m = (parseMarkerInner mk >>= fun _ =>
            if mk = .sos then pure none else pure (some 0)) := by
          unfold headerStep
          rw [if_pos hl, hk]
        rw [hs] at e ⊢
        rcases hp : parseMarkerInner mk ⟨d, rd⟩ with ⟨r1, t1⟩
        by_cases h1 : r1.isOk = false
        · rw [bind_fail hp h1] at e
          simp only [Prod.mk.injEq] at e
          obtain ⟨rfl, rfl⟩ := e
          obtain ⟨t', e'⟩ := before_inner hp h1 B
          exact ⟨t', bind_fail e' h1⟩
        · rcases r1 with (u | _ | _ | _) <;> simp [Out.isOk] at h1
          rcases t1 with ⟨e1, r1⟩
          by_cases hm : mk = .sof 0 ∨ mk = .sof 2
          · have T := twin_frame (k := False) (rd := rd) hm B.len (fun h => h.elim) B.more B.opts
            unfold Twin at T
            rw [hp] at T
            obtain ⟨_, ⟨e2, r2⟩, T1, T2, T3⟩ := T
            dsimp only at T2 T3
            subst T2
            have hns : mk ≠ .sos := by rcases hm with rfl | rfl <;> simp
            rw [M.bind_ok (show (parseMarkerInner mk >>= fun _ =>
              (if mk = .sos then pure none else pure (some 0) : M H (Option Nat)))
              ⟨d, rd⟩ = (.ok (some 0), ⟨e1, r2⟩) from by
                rw [M.bind_ok hp, if_neg hns]
                rfl)] at e
            rw [M.bind_ok (show (parseMarkerInner mk >>= fun _ =>
              (if mk = .sos then pure none else pure (some 0) : M H (Option Nat)))
              ⟨d', rd⟩ = (.ok (some 0), ⟨e2, r2⟩) from by
                rw [M.bind_ok T1, if_neg hns]
                rfl)]
            refine Twin.fail (Q := fun _ _ _ _ => True) (.bind (.getDec ?_)) e hr
            have k3 := T3
            simp only [HeadAlike, headCore, headOpts, Prod.mk.injEq] at k3
            refine .ite (by rw [k3.2.2.2.1]) (fun _ => .throw) fun _ => ?_
            exact twin_loop fuel m (0 + 1) _ _ _ T3
          · by_cases hns : mk = .sos
            · exfalso
              subst hns
              have T := twin_sos_zero (rd := rd) B.zero B.zero
              unfold Twin at T
              rw [show parseSos ⟨d, rd⟩ = _ from hp] at T
              obtain ⟨_, _, _, h⟩ := T
              exact h
            · have T := twin_other (k := True) (rd := rd) (before_loose _) (before_tabled _)
                (fun e => hm (.inl e)) (fun e => hm (.inr e)) hns B
              unfold Twin at T
              rw [hp] at T
              obtain ⟨_, ⟨e2, r2⟩, T1, T2, T3⟩ := T
              dsimp only at T2 T3
              subst T2
              rw [M.bind_ok (show (parseMarkerInner mk >>= fun _ =>
                (if mk = .sos then pure none else pure (some 0) : M H (Option Nat)))
                ⟨d, rd⟩ = (.ok (some 0), ⟨e1, r2⟩) from by
                  rw [M.bind_ok hp, if_neg hns]
                  rfl)] at e
              rw [M.bind_ok (show (parseMarkerInner mk >>= fun _ =>
                (if mk = .sos then pure none else pure (some 0) : M H (Option Nat)))
                ⟨d', rd⟩ = (.ok (some 0), ⟨e2, r2⟩) from by
                  rw [M.bind_ok T1, if_neg hns]
                  rfl)]
              exact next 0 e1 e2 r2 T3 e
    · have hf : ∀ x : Decoder, headerStep last count m ⟨x, rd⟩ = (.ok (some count), ⟨x, rd⟩) :=
        fun x => by
          unfold headerStep
          rw [if_neg hl]
          rfl
      rw [M.bind_ok (hf d)] at e
      rw [M.bind_ok (hf d')]
      exact next count d d' rd B e

/-- Headers that cannot be read cannot be read a second time, and the second call ends in the same
way. -/
theorem headers_fail_again (cpu : Cpu) (o : Options) {buf : List UInt8} {r : Out Unit} {t : H}
    (h : decodeHeaders ⟨Decoder.newWithOptions cpu o, buf⟩ = (r, t)) (hr : r.isOk = false) :
    ∃ t', decodeHeaders ⟨t.dec, buf⟩ = (r, t') := by
  have S : HeadSame o t.dec := by
    have := stays_headers o ⟨Decoder.newWithOptions cpu o, buf⟩ ⟨rfl, rfl⟩
    rw [h] at this
    exact this
  have B : Before t.dec (Decoder.newWithOptions cpu o) t.dec := by
    refine ⟨S.1, rfl, rfl, S.2, fun i => ?_⟩
    by_cases hi : i < 4
    · right
      refine ⟨?_, rfl⟩
      show [none, none, none, none][i]? = _
      match i, hi with
      | 0, _ => rfl
      | 1, _ => rfl
      | 2, _ => rfl
      | 3, _ => rfl
    · left
      rw [List.getElem?_eq_none (by rw [S.2]; omega)]
      show none = ([none, none, none, none] : List (Option (List Nat)))[i]?
      rw [List.getElem?_eq_none (by simp; omega)]
  unfold decodeHeaders at h ⊢
  dsimp only at h ⊢
  rcases buf with _ | ⟨x, _ | ⟨y, rd⟩⟩
  · rw [M.bind_err (show readU16 .exhausted ⟨Decoder.newWithOptions cpu o, []⟩ =
      (.err .exhausted, ⟨Decoder.newWithOptions cpu o, []⟩) from rfl)] at h
    rw [M.bind_err (show readU16 .exhausted ⟨t.dec, []⟩ = (.err .exhausted, ⟨t.dec, []⟩) from rfl)]
    simp only [Prod.mk.injEq] at h
    exact ⟨_, by rw [h.1]⟩
  · rw [M.bind_err (show readU16 .exhausted ⟨Decoder.newWithOptions cpu o, [x]⟩ =
      (.err .exhausted, ⟨Decoder.newWithOptions cpu o, []⟩) from rfl)] at h
    rw [M.bind_err (show readU16 .exhausted ⟨t.dec, [x]⟩ = (.err .exhausted, ⟨t.dec, []⟩) from rfl)]
    simp only [Prod.mk.injEq] at h
    exact ⟨_, by rw [h.1]⟩
  · rw [M.bind_ok (show readU16 .exhausted ⟨Decoder.newWithOptions cpu o, x :: y :: rd⟩ =
      (.ok (x.toUInt16 <<< 8 ||| y.toUInt16), ⟨Decoder.newWithOptions cpu o, rd⟩) from rfl)] at h
    rw [M.bind_ok (show readU16 .exhausted ⟨t.dec, x :: y :: rd⟩ =
      (.ok (x.toUInt16 <<< 8 ||| y.toUInt16), ⟨t.dec, rd⟩) from rfl)]
    by_cases hm : x.toUInt16 <<< 8 ||| y.toUInt16 ≠ 0xffd8
    · rw [if_pos hm] at h ⊢
      simp only [M.throw_apply, Prod.mk.injEq] at h
      exact ⟨_, by rw [← h.1]; rfl⟩
    · rw [if_neg hm] at h ⊢
      exact before_loop _ _ _ _ _ _ _ _ h hr B

end Zune
