import Verif.Lemmas.LbfgsLoop
/-! Helper lemmas for the stopping tests of the minimiser. -/
namespace Verif.Lbfgs
open Finset Spec

variable {n : Nat} {σ K : Type} [Field K] [LinearOrder K] [IsStrictOrderedRing K]

/-- The values after each iteration, from the start. -/
def vals (f0 : K) (reports : List (Report n K)) : List K := f0 :: reports.reverse.map (·.fx)

omit [Field K] [LinearOrder K] [IsStrictOrderedRing K] in
theorem vals_cons (f0 : K) (q : Report n K) (l : List (Report n K)) :
    vals f0 (q :: l) = vals f0 l ++ [q.fx] := by
  simp [vals]

omit [Field K] [LinearOrder K] [IsStrictOrderedRing K] in
theorem vals_length (f0 : K) (l : List (Report n K)) : (vals f0 l).length = l.length + 1 := by
  simp [vals]

/-- The test on a report. -/
def Flat (p : Par K) (q : Report n K) : Prop := q.gnorm ≤ p.epsilon * max 1 q.xnorm

theorem converged_iff (p : Par K) (x g : K) : converged p x g ↔ g ≤ p.epsilon * max 1 x := by
  unfold converged
  have h : (if x < 1 then (1 : K) else x) = max 1 x := by
    split_ifs with h
    · exact (max_eq_left h.le).symm
    · exact (max_eq_right (not_lt.1 h)).symm
  rw [h, div_le_iff₀ (lt_of_lt_of_le one_pos (le_max_left _ _))]

omit [IsStrictOrderedRing K] in
theorem stalled_append {past : Int} {delta : K} {v w : List K} {k : Nat} (hk : k < v.length) :
    Stalled past delta (v ++ w) k ↔ Stalled past delta v k := by
  unfold Stalled
  rw [List.getElem?_append_left hk, List.getElem?_append_left (by omega)]

/-- The memory of the delta test and the tests that failed so far. -/
structure PastMem (p : Par K) (f0 : K) (s : St n σ K) : Prop where
  k : s.k = s.reports.length + 1
  len : s.pf.length = p.past.toNat
  pf : ∀ i, i < s.k → s.k ≤ i + p.past.toNat → s.pf[i % p.past.toNat]? = (vals f0 s.reports)[i]?
  stalled : ∀ i, i < s.k → ¬ Stalled p.past p.delta (vals f0 s.reports) i
  flat : ∀ q ∈ s.reports, ¬ Flat p q

theorem pastMem_start (env : Env n σ K) (p : Par K) (x0 : Fin n → K) (cb : σ) :
    PastMem p (obj env p x0) (start env p x0 cb) := by
  have hf : (start env p x0 cb).fx = obj env p x0 := (inv_start env p x0 cb).f
  refine ⟨rfl, ?_, ?_, ?_, fun q hq => by cases hq⟩
  · show ((List.replicate _ _).set 0 _).length = _
    simp
  · intro i hi hl
    change i < 1 at hi
    change 1 ≤ i + _ at hl
    have : i = 0 := by omega
    subst this
    show ((List.replicate p.past.toNat 0).set 0 (start env p x0 cb).fx)[0 % _]? = some _
    rw [hf, Nat.zero_mod, List.getElem?_set_self (by rw [List.length_replicate]; omega)]
  · intro i hi h
    change i < 1 at hi
    obtain ⟨h1, h2, _⟩ := h
    omega

/-- What the delta test means. -/
theorem deltaStop_iff {p : Par K} {f0 : K} {s : St n σ K} (h : PastMem p f0 s) (q : Report n K) (hq : q.fx ≠ 0) :
    deltaStop p s q.fx ↔ Stalled p.past p.delta (vals f0 (q :: s.reports)) s.k := by
  have hlen := vals_length f0 s.reports
  have hk := h.k
  unfold deltaStop Stalled
  refine and_congr_right fun h1 => and_congr_right fun h2 => ?_
  rw [vals_cons, List.getElem?_append_left (by omega), List.getElem?_append_right (by omega)]
  have h3 : s.k - (vals f0 s.reports).length = 0 := by omega
  have h4 : (s.k - p.past.toNat) % p.past.toNat = s.k % p.past.toNat := (Nat.mod_eq_sub_mod (by omega)).symm
  have h5 := h.pf (s.k - p.past.toNat) (by omega) (by omega)
  rw [h4] at h5
  rw [h3, ← h5, List.getD_eq_getElem?_getD, fabs_eq, abs_div, div_lt_iff₀ (abs_pos.2 hq)]
  have hlt : s.k % p.past.toNat < s.pf.length := by rw [h.len]; exact Nat.mod_lt _ (by omega)
  rw [List.getElem?_eq_getElem hlt]
  constructor
  · intro h
    exact ⟨_, _, rfl, rfl, hq, h⟩
  · rintro ⟨a, b, ha, hb, -, h⟩
    cases ha
    cases hb
    exact h

/-- A pass that goes on. -/
theorem iterate_on {env : Env n σ K} {p : Par K} {s s' : St n σ K} (h : iterate env p s = .inl s') :
    let q := rep env p s (lineSearch env p s)
    ¬ Flat p q ∧ ¬ deltaStop p s q.fx ∧ s'.k = s.k + 1 ∧ s'.reports = q :: s.reports ∧
      s'.pf = newPf p s q.fx := by
  unfold iterate at h
  dsimp only at h
  by_cases h1 : (lineSearch env p s).ret < 0
  · rw [if_pos h1] at h; cases h
  rw [if_neg h1] at h
  split_ifs at h with h2 h3 h4 h5
  cases h
  exact ⟨fun hf => h3 ((converged_iff _ _ _).2 hf), h4, rfl, rfl, rfl⟩

/-- A pass that stops. -/
theorem iterate_off {env : Env n σ K} {p : Par K} {s : St n σ K} {o : Out n K}
    (hp : ∀ cb x g a b c d k l, (env.progress cb x g a b c d k l).1 = 0)
    (h : iterate env p s = .inr o) :
    let q := rep env p s (lineSearch env p s)
    (o.ret < 0 ∧ o.reports = s.reports) ∨
    (o.reports = q :: s.reports ∧
      ((o.ret = 0 ∧ Flat p q) ∨ (o.ret = 1 ∧ ¬ Flat p q ∧ deltaStop p s q.fx) ∨
        (o.ret = -997 ∧ ¬ Flat p q ∧ ¬ deltaStop p s q.fx))) := by
  unfold iterate at h
  dsimp only at h
  by_cases h1 : (lineSearch env p s).ret < 0
  · rw [if_pos h1] at h
    cases h
    exact .inl ⟨h1, rfl⟩
  rw [if_neg h1, if_neg (not_not.2 (hp _ _ _ _ _ _ _ _ _))] at h
  right
  split_ifs at h with h3 h4 h5
  · cases h
    exact ⟨rfl, .inl ⟨rfl, (converged_iff _ _ _).1 h3⟩⟩
  · cases h
    exact ⟨rfl, .inr (.inl ⟨rfl, fun hf => h3 ((converged_iff _ _ _).2 hf), h4⟩)⟩
  · cases h
    exact ⟨rfl, .inr (.inr ⟨rfl, fun hf => h3 ((converged_iff _ _ _).2 hf), h4⟩)⟩

theorem not_stalled_next {p : Par K} {f0 : K} {s : St n σ K} (h : PastMem p f0 s) (q : Report n K)
    (hd : ¬ deltaStop p s q.fx) (i : Nat) (hi : i < s.k + 1) :
    ¬ Stalled p.past p.delta (vals f0 (q :: s.reports)) i := by
  have hlen := vals_length f0 s.reports
  have hk := h.k
  rcases Nat.lt_succ_iff_lt_or_eq.1 hi with hi | rfl
  · rw [vals_cons, stalled_append (by omega)]
    exact h.stalled i hi
  · intro hs
    have hq : q.fx ≠ 0 := by
      obtain ⟨_, _, a, b, _, hb, h0, _⟩ := hs
      rw [vals_cons, List.getElem?_append_right (by omega),
        show s.k - (vals f0 s.reports).length = 0 by omega] at hb
      cases hb
      exact h0
    exact hd ((deltaStop_iff h q hq).2 hs)

theorem pastMem_next {env : Env n σ K} {p : Par K} {f0 : K} {s s' : St n σ K} (h : PastMem p f0 s)
    (hi : iterate env p s = .inl s') : PastMem p f0 s' := by
  obtain ⟨h1, h2, h3, h4, h5⟩ := iterate_on hi
  have hlen := vals_length f0 s.reports
  have hk := h.k
  refine ⟨?_, ?_, ?_, ?_, ?_⟩
  · rw [h3, h4, List.length_cons, hk]
  · rw [h5]
    unfold newPf
    split_ifs
    · rw [List.length_set, h.len]
    · exact h.len
  · intro i hi hl
    rw [h3] at hi hl
    rw [h4, vals_cons, h5]
    have hp : 0 < p.past := by omega
    unfold newPf
    rw [if_pos hp]
    have hpos : 0 < p.past.toNat := by omega
    rcases Nat.lt_succ_iff_lt_or_eq.1 hi with hi | rfl
    · rw [List.getElem?_append_left (by omega), ← h.pf i hi (by omega)]
      apply List.getElem?_set_ne
      intro he
      have h6 : p.past.toNat ∣ s.k - i := (Nat.modEq_iff_dvd' hi.le).1 he.symm
      have := Nat.le_of_dvd (by omega) h6
      omega
    · rw [List.getElem?_append_right (by omega), show s.k - (vals f0 s.reports).length = 0 by omega,
        List.getElem?_set_self (by rw [h.len]; exact Nat.mod_lt _ hpos)]
      rfl
  · intro i hi
    rw [h3] at hi
    rw [h4]
    exact not_stalled_next h _ h2 i hi
  · intro q hq
    rw [h4] at hq
    rcases List.mem_cons.1 hq with rfl | hq
    · exact h1
    · exact h.flat q hq

/-- What the tests say about a run that ended. -/
theorem run_stop {env : Env n σ K} {p : Par K} {f0 : K}
    (hp : ∀ cb x g a b c d k l, (env.progress cb x g a b c d k l).1 = 0) {s : St n σ K} {o : Out n K}
    (hr : Run env p s o) (h : PastMem p f0 s) :
    (∀ k, k < o.reports.length ∨ (k = o.reports.length ∧ o.ret < 0) →
      ¬ Stalled p.past p.delta (vals f0 o.reports) k) ∧
    (∀ q ∈ o.reports.tail, ¬ Flat p q) ∧ (∀ q ∈ o.reports.head?, o.ret ≠ 0 → ¬ Flat p q) ∧
    (o.ret = 1 → ∃ q ∈ o.reports.head?, q.fx ≠ 0 →
      Stalled p.past p.delta (vals f0 o.reports) o.reports.length) ∧
    (o.ret = 0 → ∃ q ∈ o.reports.head?, Flat p q) := by
  induction hr with
  | next h1 _ ih => exact ih (pastMem_next h h1)
  | @done s o h1 =>
    have hk := h.k
    have hlen := vals_length f0 s.reports
    rcases iterate_off hp h1 with ⟨h2, h3⟩ | ⟨h3, h4⟩
    · rw [h3]
      exact ⟨fun k hk => h.stalled k (by omega), fun q hq => h.flat q (List.mem_of_mem_tail hq),
        fun q hq _ => h.flat q (List.mem_of_mem_head? hq), fun h => by omega, fun h => by omega⟩
    · rw [h3, List.length_cons, List.tail_cons, List.head?_cons]
      refine ⟨fun k hk => ?_, h.flat, fun q hq h0 => ?_, fun h0 => ⟨_, rfl, fun hq => ?_⟩, fun h0 => ⟨_, rfl, ?_⟩⟩
      · rcases hk with hk | ⟨hk, hr⟩
        · rw [vals_cons, stalled_append (by omega)]
          exact h.stalled k (by omega)
        · rcases h4 with ⟨h4, _⟩ | ⟨h4, _⟩ | ⟨_, _, h4⟩
          · omega
          · omega
          · exact not_stalled_next h _ h4 k (by omega)
      · cases hq
        rcases h4 with ⟨h4, _⟩ | ⟨_, h4, _⟩ | ⟨_, h4, _⟩
        · exact absurd h4 h0
        · exact h4
        · exact h4
      · rcases h4 with ⟨h4, _⟩ | ⟨_, _, h4⟩ | ⟨h4, _⟩
        · omega
        · rw [← hk]
          exact (deltaStop_iff h _ hq).1 h4
        · omega
      · rcases h4 with ⟨_, h4⟩ | ⟨h4, _⟩ | ⟨h4, _⟩
        · exact h4
        · omega
        · omega

end Verif.Lbfgs
