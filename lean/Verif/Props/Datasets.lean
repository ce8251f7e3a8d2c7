import Mathlib.Tactic.Ring
import Mathlib.Tactic.FieldSimp
import Mathlib.Tactic.Linarith
import Mathlib.Data.Fintype.BigOperators
import Mathlib.Algebra.BigOperators.Group.List.Basic
import Mathlib.Algebra.BigOperators.Fin
import Mathlib.Algebra.Order.BigOperators.Group.List
import Verif.Model.Datasets
import Verif.Spec.Datasets
import Verif.Lemmas.Datasets
/-!
Properties of the data generators (C62, C79).
-/
namespace Verif.Datasets
open Verif.Py Verif.Spec.Datasets
variable {σ K : Type} [Field K] [LinearOrder K]

/-- **C62 (regressions)**: a generated coefficient vector is the vector of draws with all but
    `n_informative` coordinates (all of them if there are fewer) set to zero. -/
theorem C62_regression (r : Rng σ K) (hd : ∀ n s, (r.coefs n s).1.length = n)
    (hs : ∀ l s, (r.shuffle l s).1.Perm l) {n k : Nat} (s : σ) :
    SparseFrom (min k n) (r.coefs n s).1 (makeBeta r n k none s).1 := by
  have hp := hs (informative n k) (r.coefs n s).2
  have h := sparse_mask (draws := (r.coefs n s).1) (mask := (r.shuffle (informative n k) (r.coefs n s).2).1)
    (by rw [hp.length_eq, length_informative, hd])
    (fun v hv => mem_informative n k v (hp.subset hv))
  rw [hp.countP_eq, count_informative] at h
  have : sliceLen n (k : Int) = min k n := by simp [sliceLen]
  rw [this] at h
  exact h

/-- **C62 (count)**: so at most `n_informative` coefficients are nonzero, exactly that many if no draw
    is zero. -/
theorem C62_count (r : Rng σ K) (hd : ∀ n s, (r.coefs n s).1.length = n)
    (hs : ∀ l s, (r.shuffle l s).1.Perm l) {n k : Nat} (hk : k ≤ n) (s : σ) :
    nonzeros (makeBeta r n k none s).1 ≤ k ∧
      ((∀ v ∈ (r.coefs n s).1, v ≠ 0) → nonzeros (makeBeta r n k none s).1 = k) := by
  have h := sparse_countP (C62_regression r hd hs (n := n) (k := k) s)
  rwa [min_eq_left hk] at h

/-- **C62 (supplied coefficients and intercept)**: a supplied coefficient vector is returned unchanged,
    and without `include_intercept` the intercept is zero; a vector of the wrong length is refused. -/
theorem C62_supplied {Y : Type} (r : Rng σ K) (respond : List K → σ → Y) (m n : Nat) (k : Int)
    (b : List K) (incl : Bool) (s : σ) :
    (b.length = n → ∃ o, makeRegression r respond m n k (some b) incl s = .ok o ∧ o.coef = [b] ∧
      (incl = false → o.intercept = [0])) ∧
    (b.length ≠ n → makeRegression r respond m n k (some b) incl s = .error .valueError) := by
  constructor
  · intro h
    refine ⟨_, if_neg (not_not.2 h), rfl, fun hi => ?_⟩
    subst hi; rfl
  · intro h
    exact if_pos h

/-- **C62 (no intercept)**: without `include_intercept` the generated regressions have intercept zero. -/
theorem C62_no_intercept {Y : Type} (r : Rng σ K) (respond : List K → σ → Y) (m n : Nat) (k : Int)
    (beta : Option (List K)) (s : σ) {o : Out K Y}
    (h : makeRegression r respond m n k beta false s = .ok o) : o.intercept = [0] := by
  simp only [makeRegression] at h
  split_ifs at h
  cases h
  rfl

/-- **C62 (classification)**: every row of the coefficients returned is a row of (scaled) draws with all
    but `n_informative` coordinates set to zero; there is one row per class, one for two classes; with
    `shared_support` the same coordinates are set to zero in all rows; without `include_intercept`
    the intercepts are zero. -/
theorem C62_classification (r : Rng σ K) (hg : ∀ n s, (r.gaussian n s).1.length = n)
    (hp : ∀ n s, (r.permutation n s).1.Perm (List.range n)) {n k : Nat} (hk : k ≤ n) (q : Nat)
    (shared incl : Bool) (c : K) (s : σ) :
    (∃ draws : List (List K), draws.length = (if 2 < q then q else 1) ∧
      List.Forall₂ (SparseFrom k) draws (makeW r n k q shared incl c s).1.1) ∧
    (shared = true → ∃ Z : List Nat, Z.length = n - k ∧ Z.Nodup ∧ (∀ i ∈ Z, i < n) ∧
      ∀ w ∈ (makeW r n k q shared incl c s).1.1, ∀ i ∈ Z, w[i]? = some 0) ∧
    (incl = false → ∀ v ∈ (makeW r n k q shared incl c s).1.2, v = 0) := by
  have hsl : sliceLen n ((n : Int) - k) = n - k := by simp only [sliceLen]; split_ifs <;> omega
  have hid : ∀ ws : List (List K), (∀ w ∈ ws, w.length = n) → n = k →
      List.Forall₂ (SparseFrom k) (ws.map fun w => w.map (· * c)) (ws.map fun w => w.map (· * c)) := by
    intro ws hw hnk
    rw [List.forall₂_same]
    intro w hw'
    obtain ⟨w0, hw0, rfl⟩ := List.mem_map.1 hw'
    refine ⟨rfl, Finset.univ, ?_, fun i => ?_⟩
    · simp [hw w0 hw0, hnk]
    · rw [if_pos (Finset.mem_univ _)]
      exact List.getElem?_eq_getElem i.2
  have hsh : ∀ (ws : List (List K)) (s : σ), (∀ w ∈ ws, w.length = n) →
      List.Forall₂ (SparseFrom k) (ws.map fun w => w.map (· * c))
        ((ws.map (zeroAt ((r.permutation n s).1.take (n - k)))).map fun w => w.map (· * c)) := by
    intro ws s hw
    rw [List.map_map, List.forall₂_map_left_iff, List.forall₂_map_right_iff, List.forall₂_same]
    intro w hw'
    have h := sparse_zeroAt (hp n s) (hw w hw') (Nat.sub_le n k) c
    rwa [show n - (n - k) = k by omega] at h
  have hZ : ∀ (ws : List (List K)) (s : σ), (∀ w ∈ ws, w.length = n) →
      ∃ Z : List Nat, Z.length = n - k ∧ Z.Nodup ∧ (∀ i ∈ Z, i < n) ∧
        ∀ w ∈ ((ws.map (zeroAt ((r.permutation n s).1.take (n - k)))).map fun w => w.map (· * c)),
          ∀ i ∈ Z, w[i]? = some 0 := by
    intro ws s hw
    have hl : (r.permutation n s).1.length = n := by rw [(hp n s).length_eq]; simp
    refine ⟨(r.permutation n s).1.take (n - k), by rw [List.length_take, hl]; omega,
      ((hp n s).nodup_iff.2 List.nodup_range).sublist (List.take_sublist _ _),
      fun i hi => by simpa using (hp n s).subset (List.mem_of_mem_take hi), ?_⟩
    intro w hw' i hi
    rw [List.map_map] at hw'
    obtain ⟨w0, hw0, rfl⟩ := List.mem_map.1 hw'
    have hin : i < w0.length := by
      rw [hw w0 hw0]; simpa using (hp n s).subset (List.mem_of_mem_take hi)
    simp [zeroAt, List.getElem?_mapIdx, List.getElem?_eq_getElem hin, hi]
  have hZ0 : ∀ (ws : List (List K)), ¬ (0 : Int) < n - k → ∃ Z : List Nat, Z.length = n - k ∧ Z.Nodup ∧
      (∀ i ∈ Z, i < n) ∧ ∀ w ∈ ws, ∀ i ∈ Z, w[i]? = some 0 := by
    intro ws h
    exact ⟨[], by simp only [List.length_nil]; omega, List.nodup_nil, by simp, by simp⟩
  by_cases hq : 2 < q
  · have hd := drawRows_length r hg n q s
    simp only [makeW, if_pos hq]
    refine ⟨⟨(drawRows r n q s).1.map fun w => w.map (· * c), by simp [hd.1], ?_⟩, ?_, ?_⟩
    · by_cases h0 : (0 : Int) < n - k
      · cases shared
        · simp only [if_pos h0, Bool.false_eq_true, if_false]
          exact zeroEach_spec r hp hk c _ hd.2 _
        · simp only [if_pos h0, if_true, zeroed, hsl]
          exact hsh _ _ hd.2
      · simp only [if_neg h0]
        exact hid _ hd.2 (by omega)
    · rintro rfl
      by_cases h0 : (0 : Int) < n - k
      · simp only [if_pos h0, if_true, zeroed, hsl]
        exact hZ _ _ hd.2
      · simp only [if_neg h0]
        exact hZ0 _ h0
    · rintro rfl v hv
      simp only [Bool.false_eq_true, if_false, List.mem_replicate] at hv
      exact hv.2
  · have hd := drawRows_length r hg n 1 s
    simp only [makeW, if_neg hq]
    refine ⟨⟨(drawRows r n 1 s).1.map fun w => w.map (· * c), by simp [hd.1], ?_⟩, ?_, ?_⟩
    · by_cases h0 : (0 : Int) < n - k
      · simp only [if_pos h0, zeroed, hsl]
        exact hsh _ _ hd.2
      · simp only [if_neg h0]
        exact hid _ hd.2 (by omega)
    · rintro -
      by_cases h0 : (0 : Int) < n - k
      · simp only [if_pos h0, zeroed, hsl]
        exact hZ _ _ hd.2
      · simp only [if_neg h0]
        exact hZ0 _ h0
    · rintro rfl v hv
      simpa using hv

/-- A generator: ones, and the identity permutation. -/
def exRng : Rng Unit ℚ :=
  ⟨fun n _ => ((List.range n).map fun i : Nat => (i : ℚ) + 1, ()),
   fun n _ => ((List.range n).map fun i : Nat => (i : ℚ) + 1, ()),
   fun l _ => (l.reverse, ()), fun n _ => ((List.range n).reverse, ())⟩

example : (∀ n s, (exRng.coefs n s).1.length = n) ∧ (∀ l s, (exRng.shuffle l s).1.Perm l) ∧
    (∀ n s, (exRng.gaussian n s).1.length = n) ∧
    ∀ n s, (exRng.permutation n s).1.Perm (List.range n) :=
  ⟨by simp [exRng], fun l _ => List.reverse_perm l, by simp [exRng], fun n _ => List.reverse_perm _⟩

example : (makeBeta exRng 4 2 none ()).1 = [0, 0, 3, 4] := by decide +kernel

example : (makeW exRng 3 2 3 true false 2 ()).1.1 = [[2, 4, 0], [2, 4, 0], [2, 4, 0]] := by
  decide +kernel

/-! ### C79 -/

/-- **C79 (partial)**: a sample whose entries are not all equal is returned with mean zero and mean
    square one. -/
theorem C79_partial {x : List ℝ} (h : ∃ a ∈ x, ∃ b ∈ x, a ≠ b) :
    ∃ z : List ℝ, standardizeSample x = z.map .fin ∧ z.length = x.length ∧ z.sum = 0 ∧
      (z.map fun v => v ^ 2).sum = (x.length : ℝ) := by
  obtain ⟨a, ha, b, hb, hab⟩ := h
  have hlen : (0 : ℝ) < x.length := by
    have : 0 < x.length := List.length_pos_of_mem ha
    exact_mod_cast this
  set m := x.sum / x.length with hm
  have hpos : 0 < (x.map fun v => (v - m) ^ 2).sum := by
    by_contra hc
    have h0 : (x.map fun v => (v - m) ^ 2).sum = 0 :=
      le_antisymm (not_lt.1 hc) (List.sum_nonneg fun v hv => by
        obtain ⟨w, -, rfl⟩ := List.mem_map.1 hv; exact sq_nonneg _)
    have hz : ∀ v ∈ x, v = m := by
      intro v hv
      have hle : (v - m) ^ 2 ≤ 0 := by
        rw [← h0]
        exact List.single_le_sum (fun w hw => by
          obtain ⟨u, -, rfl⟩ := List.mem_map.1 hw; exact sq_nonneg _) _
          (List.mem_map_of_mem (f := fun v => (v - m) ^ 2) hv)
      have := pow_eq_zero_iff (two_ne_zero) |>.1 (le_antisymm hle (sq_nonneg _))
      linarith
    exact hab ((hz a ha).trans (hz b hb).symm)
  set sd := Real.sqrt ((x.map fun v => (v - m) ^ 2).sum / x.length) with hsd
  have hsd0 : 0 < sd := Real.sqrt_pos.2 (div_pos hpos hlen)
  have hsq : sd ^ 2 = (x.map fun v => (v - m) ^ 2).sum / x.length :=
    Real.sq_sqrt (div_pos hpos hlen).le
  refine ⟨x.map fun v => (v - m) / sd, ?_, by simp, ?_, ?_⟩
  · unfold standardizeSample
    simp only [← hm, ← hsd, if_neg hsd0.ne', List.map_map, Function.comp_def]
  · have : ∀ l : List ℝ, (l.map fun v => (v - m) / sd).sum = (l.sum - l.length * m) / sd := by
      intro l
      induction l with
      | nil => simp
      | cons v l ih => simp only [List.map_cons, List.sum_cons, ih, List.length_cons]; push_cast; ring
    rw [this, hm]
    field_simp
    simp
  · have : ∀ l : List ℝ, ((l.map fun v => (v - m) / sd).map fun v => v ^ 2).sum =
        (l.map fun v => (v - m) ^ 2).sum / sd ^ 2 := by
      intro l
      induction l with
      | nil => simp
      | cons v l ih => simp only [List.map_cons, List.sum_cons, ih]; ring
    rw [this, hsq]
    field_simp

/-- **C79 (negation)**: with a single feature every sample is NaN, and with a single sample and two
    classes drawing the responses fails. -/
theorem C79_negation : (∀ v : ℝ, standardizeSample [v] = [.nan]) ∧
    ∀ (binomial : K → Nat) (p : Ext K), binaryResponses binomial [p] = .error .typeError := by
  constructor
  · intro v
    simp [standardizeSample]
  · intro b p; rfl

/-- **C79 (responses)**: with two or more samples and finite probabilities there is one response per
    sample. -/
theorem C79_responses (binomial : K → Nat) {p : List K} (h : p.length ≠ 1) :
    binaryResponses binomial (p.map .fin) = .ok (p.map binomial) := by
  unfold binaryResponses
  rw [if_neg (by simpa using h)]
  clear h
  induction p with
  | nil => rfl
  | cons x xs ih => simp only [List.map_cons, mapE, ih]

example : ∃ a ∈ [(1 : ℝ), 2], ∃ b ∈ [(1 : ℝ), 2], a ≠ b := ⟨1, by simp, 2, by simp, by norm_num⟩

/-- **C95**: the generated regressions belong together: the design matrix has the requested shape, and the
    response was drawn from the linear predictor of the returned coefficients and intercept at its
    rows. -/
theorem C95_response {Y : Type} (r : Rng σ K) (hg : ∀ n s, (r.gaussian n s).1.length = n)
    (respond : List K → σ → Y) (m n : Nat) (k : Int) (beta : Option (List K)) (incl : Bool) (s : σ) {o : Out K Y}
    (h : makeRegression r respond m n k beta incl s = .ok o) :
    o.X.length = m ∧ (∀ x ∈ o.X, x.length = n) ∧
    ∃ (b : List K) (c : K) (eta : List K) (s' : σ), o.coef = [b] ∧ o.intercept = [c] ∧ b.length = n ∧
      o.y = respond eta s' ∧ eta.length = m ∧
      ∀ (i : Nat) (x : List K), o.X[i]? = some x →
        eta[i]? = some (c + ∑ j : Fin n, x.getD j 0 * b.getD j 0) := by
  simp only [makeRegression] at h
  split_ifs at h with hb
  cases h
  have hb' := not_not.1 hb
  have hX := drawRows_length r hg n m s
  refine ⟨hX.1, hX.2, _, _, _, _, rfl, rfl, hb', rfl, by rw [List.length_map]; exact hX.1, ?_⟩
  intro i x hx
  rw [List.getElem?_map, hx, Option.map_some]
  congr 2
  exact dot_eq_sum (hX.2 x (List.mem_of_getElem? hx)) hb'

-- Two samples of the features 1, 2 with the coefficients 3, 4 and no intercept.
example : ∃ o, makeRegression (σ := Unit) (K := ℚ) ⟨fun n _ => ((List.range n).map fun i => (i : ℚ) + 1, ()),
      fun n _ => (List.replicate n 1, ()), fun l _ => (l, ()), fun n _ => (List.range n, ())⟩ (fun eta _ => eta)
      2 2 1 (some [3, 4]) false () = .ok o ∧ o.y = [11, 11] := by
  refine ⟨_, rfl, ?_⟩
  decide +kernel

end Verif.Datasets
