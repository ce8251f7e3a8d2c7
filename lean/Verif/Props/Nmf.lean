import Mathlib.Analysis.InnerProductSpace.Basic
import Mathlib.Algebra.Order.Floor.Defs
import Mathlib.Tactic.Positivity
import Mathlib.Tactic.NormNum.Basic
import Mathlib.Data.Fin.VecNotation
import Mathlib.LinearAlgebra.Matrix.Notation
import Verif.Lemmas.Fit
import Mathlib.Tactic.Linarith
import Mathlib.Tactic.FieldSimp
import Verif.Model.Nmf
import Verif.Spec.Nmf
import Verif.Lemmas.FitResult
import Verif.Lemmas.Nmf
/-!
Properties of the NMF decomposition (C57-C61, C77).
-/
namespace Verif.Nmf
open Verif.Py Verif.Spec.Nmf
variable {k d : Nat}

/-! ### C58 -/

/-- **C58 (range)**: for nonnegative bases without zero rows the dissimilarity is a number in
    `[0, 1]`. -/
theorem C58_range [NeZero k] {H1 H2 : Fin k → Fin d → ℝ} (n1 : ∀ a, Nonneg (H1 a))
    (n2 : ∀ b, Nonneg (H2 b)) (h1 : ∀ a, ∃ j, H1 a j ≠ 0) (h2 : ∀ b, ∃ j, H2 b j ≠ 0) :
    ∃ v, dissimilarity H1 H2 = .fin v ∧ 0 ≤ v ∧ v ≤ 1 := by
  have hk : (0 : ℝ) < k := by exact_mod_cast Nat.pos_of_ne_zero (NeZero.ne k)
  unfold dissimilarity
  rw [if_neg (no_nan h1 h2)]
  refine ⟨_, rfl, ?_, ?_⟩
  · have a1 : ∑ b, ⨆ a, cosine H1 H2 a b ≤ k := by
      calc _ ≤ ∑ _b : Fin k, (1 : ℝ) := Finset.sum_le_sum fun b _ =>
            ciSup_le fun a => cosine_le H1 H2 a b (norm_pos (h1 a)) (norm_pos (h2 b))
        _ = k := by simp
    have a2 : ∑ a, ⨆ b, cosine H1 H2 a b ≤ k := by
      calc _ ≤ ∑ _a : Fin k, (1 : ℝ) := Finset.sum_le_sum fun a _ =>
            ciSup_le fun b => cosine_le H1 H2 a b (norm_pos (h1 a)) (norm_pos (h2 b))
        _ = k := by simp
    rw [sub_nonneg, div_le_one (by positivity)]
    linarith
  · have a1 : 0 ≤ ∑ b, ⨆ a, cosine H1 H2 a b := Finset.sum_nonneg fun b _ =>
      (cosine_nonneg n1 n2 0 b).trans (le_ciSup (bdd fun a => cosine H1 H2 a b) 0)
    have a2 : 0 ≤ ∑ a, ⨆ b, cosine H1 H2 a b := Finset.sum_nonneg fun a _ =>
      (cosine_nonneg n1 n2 a 0).trans (le_ciSup (bdd fun b => cosine H1 H2 a b) 0)
    have : 0 ≤ ((∑ b, ⨆ a, cosine H1 H2 a b) + ∑ a, ⨆ b, cosine H1 H2 a b) / (2 * (k : ℝ)) := by
      positivity
    linarith

/-- **C58 (symmetry)**. -/
theorem C58_symmetric (H1 H2 : Fin k → Fin d → ℝ) : dissimilarity H1 H2 = dissimilarity H2 H1 := by
  unfold dissimilarity
  simp only [or_comm (a := ∃ a, norm (H1 a) = 0), cosine_symm H1 H2]
  split_ifs with h
  · rfl
  · congr 2
    rw [add_comm]

/-- **C58 (identity)**: bases without zero rows have dissimilarity zero to themselves. -/
theorem C58_identical [NeZero k] {H : Fin k → Fin d → ℝ} (h : ∀ a, ∃ j, H a j ≠ 0) :
    dissimilarity H H = .fin 0 := by
  have hk : (0 : ℝ) < k := by exact_mod_cast Nat.pos_of_ne_zero (NeZero.ne k)
  have hd : ∀ a, cosine H H a a = 1 := by
    intro a
    rw [cosine_eq]
    have := norm_sq (H a)
    rw [div_eq_one_iff_eq (mul_pos (norm_pos (h a)) (norm_pos (h a))).ne', ← sq, this]
    exact Finset.sum_congr rfl fun j _ => (sq _).symm
  have hs : ∀ b, ⨆ a, cosine H H a b = 1 := fun b =>
    le_antisymm (ciSup_le fun a => cosine_le H H a b (norm_pos (h a)) (norm_pos (h b)))
      ((hd b).symm.le.trans (le_ciSup (bdd fun a => cosine H H a b) b))
  have hs' : ∀ a, ⨆ b, cosine H H a b = 1 := fun a =>
    le_antisymm (ciSup_le fun b => cosine_le H H a b (norm_pos (h a)) (norm_pos (h b)))
      ((hd a).symm.le.trans (le_ciSup (bdd fun b => cosine H H a b) a))
  unfold dissimilarity
  rw [if_neg (no_nan h h)]
  simp only [hs, hs', Finset.sum_const, Finset.card_univ, Fintype.card_fin, nsmul_eq_mul, mul_one]
  congr 1
  field_simp
  ring

/-- **C58 (scale)**: rescaling bases by positive factors changes nothing. -/
theorem C58_rescaled (H1 H2 : Fin k → Fin d → ℝ) (c1 c2 : Fin k → ℝ) (p1 : ∀ a, 0 < c1 a)
    (p2 : ∀ b, 0 < c2 b) :
    dissimilarity (fun a j => c1 a * H1 a j) (fun b j => c2 b * H2 b j) = dissimilarity H1 H2 := by
  have hc : cosine (fun a j => c1 a * H1 a j) (fun b j => c2 b * H2 b j) = cosine H1 H2 := by
    funext a b
    unfold cosine
    refine Finset.sum_congr rfl fun j _ => ?_
    rw [norm_smul (p1 a), norm_smul (p2 b), mul_div_mul_left _ _ (p1 a).ne',
      mul_div_mul_left _ _ (p2 b).ne']
  have e1 : (∃ a, norm (fun j => c1 a * H1 a j) = 0) ↔ ∃ a, norm (H1 a) = 0 :=
    exists_congr fun a => by rw [norm_smul (p1 a)]; simp [(p1 a).ne']
  have e2 : (∃ a, norm (fun j => c2 a * H2 a j) = 0) ↔ ∃ a, norm (H2 a) = 0 :=
    exists_congr fun a => by rw [norm_smul (p2 a)]; simp [(p2 a).ne']
  unfold dissimilarity
  simp only [e1, e2, hc]

/-- **C58 (order)**: permuting the bases changes nothing. -/
theorem C58_permuted (H1 H2 : Fin k → Fin d → ℝ) (σ τ : Equiv.Perm (Fin k)) :
    dissimilarity (fun a => H1 (σ a)) (fun b => H2 (τ b)) = dissimilarity H1 H2 := by
  have hc : ∀ a b, cosine (fun a => H1 (σ a)) (fun b => H2 (τ b)) a b = cosine H1 H2 (σ a) (τ b) :=
    fun a b => rfl
  have e1 : (∃ a, norm (H1 (σ a)) = 0) ↔ ∃ a, norm (H1 a) = 0 :=
    ⟨fun ⟨a, h⟩ => ⟨σ a, h⟩, fun ⟨a, h⟩ => ⟨σ.symm a, by simpa using h⟩⟩
  have e2 : (∃ a, norm (H2 (τ a)) = 0) ↔ ∃ a, norm (H2 a) = 0 :=
    ⟨fun ⟨a, h⟩ => ⟨τ a, h⟩, fun ⟨a, h⟩ => ⟨τ.symm a, by simpa using h⟩⟩
  have s1 : (∑ b, ⨆ a, cosine H1 H2 (σ a) (τ b)) = ∑ b, ⨆ a, cosine H1 H2 a b := by
    rw [← Equiv.sum_comp τ fun b => ⨆ a, cosine H1 H2 a b]
    exact Finset.sum_congr rfl fun b _ => σ.iSup_comp (g := fun a => cosine H1 H2 a (τ b))
  have s2 : (∑ a, ⨆ b, cosine H1 H2 (σ a) (τ b)) = ∑ a, ⨆ b, cosine H1 H2 a b := by
    rw [← Equiv.sum_comp σ fun a => ⨆ b, cosine H1 H2 a b]
    exact Finset.sum_congr rfl fun a _ => τ.iSup_comp (g := fun b => cosine H1 H2 (σ a) b)
  unfold dissimilarity
  simp only [e1, e2, hc, s1, s2]

/-- Two bases of two features. -/
example : (∀ a : Fin 2, Nonneg (fun j : Fin 2 => (a.val + j.val + 1 : ℝ))) ∧
    ∀ a : Fin 2, ∃ j : Fin 2, (a.val + j.val + 1 : ℝ) ≠ 0 :=
  ⟨fun a j => by positivity, fun a => ⟨0, by positivity⟩⟩

/-! ### C59 -/
variable {K : Type} [Field K] [LinearOrder K]

/-- **C59 (partial)**: with at least two bootstraps and all dissimilarities defined, the rank chosen is
    the first one whose average pairwise dissimilarity is minimal, and `dissimilarity_` lists these
    averages.  Missing: undefined dissimilarities (see the negation). -/
theorem C59_partial [IsStrictOrderedRing K] {n : Nat} (hn : 2 ≤ n) {ranks : List Nat}
    (hr : ranks ≠ []) (f : Nat → Nat → Nat → K) :
    ∃ i k, ranks[i]? = some k ∧
      chooseRank n ranks (fun i b b' => .fin (f i b b')) =
        .ok (k, (List.range ranks.length).map fun i => .fin (average n (f i))) ∧
      ∀ j < ranks.length, average n (f i) ≤ average n (f j) ∧
        (j < i → average n (f i) < average n (f j)) := by
  have hg : ((List.range ranks.length).map fun i => gamma n fun b b' => .fin (f i b b')) =
      ((List.range ranks.length).map fun i => ∑ p ∈ bootPairs n, f i p.1 p.2).map .fin := by
    rw [List.map_map]
    refine List.map_congr_left fun i _ => ?_
    simp only [gamma, foldl_addE, zero_add, pairs_sum, Function.comp]
  have hne : ((List.range ranks.length).map fun i => ∑ p ∈ bootPairs n, f i p.1 p.2) ≠ [] := by
    simp [List.range_eq_nil, hr]
  obtain ⟨m, y, h1, h2, h3⟩ := argmin_fin hne
  have hm : m < ranks.length := by
    have := (List.getElem?_eq_some_iff.1 h2).1; simpa using this
  have hcard : (0 : K) < (bootPairs n).card := by
    have : 0 < (bootPairs n).card := Finset.card_pos.2 ⟨(0, 1), by
      simp [bootPairs]; omega⟩
    exact_mod_cast this
  refine ⟨m, ranks[m], by simp [hm], ?_, ?_⟩
  · unfold chooseRank
    simp only [hg, h1, List.getElem?_eq_getElem hm]
    rw [List.map_map, List.map_map]
    congr 2
    refine List.map_congr_left fun i _ => ?_
    simp only [Function.comp]
    exact scaleGamma_avg hn (f i)
  · intro j hj
    have hy : y = ∑ p ∈ bootPairs n, f m p.1 p.2 := by
      simp only [List.getElem?_map, List.getElem?_range hm, Option.map_some, Option.some.injEq] at h2
      exact h2.symm
    have h4 := h3 j (∑ p ∈ bootPairs n, f j p.1 p.2) (by
      simp only [List.getElem?_map, List.getElem?_range hj, Option.map_some])
    rw [hy] at h4
    unfold average
    exact ⟨div_le_div_of_nonneg_right h4.1 hcard.le,
      fun hlt => div_lt_div_of_pos_right (h4.2 hlt) hcard⟩

/-- **C59 (negation)**: a rank for which one solver result has a zero basis has an undefined
    dissimilarity, and then that rank is chosen, although another rank is perfectly reproducible. -/
theorem C59_negation :
    (∀ {d : Nat} (H1 H2 : Fin 2 → Fin d → ℝ), (∀ j, H1 1 j = 0) → dissimilarity H1 H2 = .nan) ∧
    chooseRank 2 [2, 3] (fun i _ _ => if i = 0 then .fin (0 : ℚ) else .nan) =
      .ok (3, [.fin 0, .nan]) := by
  refine ⟨fun H1 H2 h => ?_, by decide +kernel⟩
  unfold dissimilarity
  rw [if_pos]
  exact .inl ⟨1, norm_eq_zero.2 h⟩

/-- **C59 (undefined)**: if dissimilarities are undefined for some ranks, the first of these ranks is chosen, whatever
    the other dissimilarities are. -/
theorem C59_undefined {n : Nat} {ranks : List Nat} {diss : Nat → Nat → Nat → Ext K}
    (hd : ∀ i a b, diss i a b = .nan ∨ ∃ x, diss i a b = .fin x) {i k : Nat} (hk : ranks[i]? = some k)
    (hi : ∃ a b, a < b ∧ b < n ∧ diss i a b = .nan)
    (hfirst : ∀ j < i, ∀ a b, a < b → b < n → diss j a b ≠ .nan) :
    ∃ g, chooseRank n ranks diss = .ok (k, g) ∧ g.length = ranks.length ∧
      ∀ j, g[j]? = some .nan ↔ j < ranks.length ∧ ∃ a b, a < b ∧ b < n ∧ diss j a b = .nan := by
  have hn : ¬ n < 2 := by obtain ⟨a, b, h1, h2, -⟩ := hi; omega
  have hi' : i < ranks.length := (List.getElem?_eq_some_iff.1 hk).1
  have ha : argmin ((List.range ranks.length).map fun i => gamma n (diss i)) = .ok i := by
    refine argmin_nan ?_ fun j hj h => ?_
    · rw [List.getElem?_map, List.getElem?_range hi', Option.map_some, (gamma_nan (hd i)).2 hi]
    · rw [List.getElem?_map, List.getElem?_range (by omega), Option.map_some, Option.some.injEq,
        gamma_nan (hd j)] at h
      obtain ⟨a, b, h1, h2, h3⟩ := h
      exact hfirst j hj a b h1 h2 h3
  refine ⟨((List.range ranks.length).map fun i => gamma n (diss i)).map (scaleGamma n),
    by simp only [chooseRank, ha, hk], by simp, fun j => ?_⟩
  by_cases hj : j < ranks.length
  · rw [List.getElem?_map, List.getElem?_map, List.getElem?_range hj, Option.map_some, Option.map_some,
      Option.some.injEq]
    simp only [hj, true_and]
    rw [← gamma_nan (hd j)]
    have := (foldl_nan (pairs n) (diss j) (hd j) (.fin 0) (.inr ⟨0, rfl⟩)).1
    change gamma n (diss j) = .nan ∨ ∃ x, gamma n (diss j) = .fin x at this
    rcases this with h | ⟨x, h⟩ <;> rw [h] <;> simp [scaleGamma, hn]
  · rw [List.getElem?_eq_none (by simp; omega)]
    simp [hj]

/-- **C59 (one bootstrap)**: there is no pair of bootstraps to compare, so the first rank is chosen, and
    `dissimilarity_` holds only NaN. -/
theorem C59_one_bootstrap [IsStrictOrderedRing K] (k : Nat) (ranks : List Nat) (diss : Nat → Nat → Nat → Ext K) :
    chooseRank 1 (k :: ranks) diss = .ok (k, List.replicate (ranks.length + 1) .nan) := by
  have hg : ((List.range (k :: ranks).length).map fun i => gamma 1 (diss i)) =
      (List.replicate (ranks.length + 1) (0 : K)).map .fin := by
    rw [List.map_replicate, List.eq_replicate_iff]
    refine ⟨by simp, fun b hb => ?_⟩
    obtain ⟨i, -, rfl⟩ := List.mem_map.1 hb
    rfl
  obtain ⟨m, y, h1, h2, h3⟩ := argmin_fin (l := List.replicate (ranks.length + 1) (0 : K)) (by simp)
  have hm : m = 0 := by
    by_contra hm
    have hy : y = 0 := by
      rw [List.getElem?_replicate] at h2
      split_ifs at h2
      exact (Option.some.inj h2).symm
    have := (h3 0 0 (by simp)).2 (by omega)
    rw [hy] at this
    exact lt_irrefl _ this
  subst hm
  simp only [chooseRank, hg, h1, List.getElem?_cons_zero]
  simp [scaleGamma]

/-- An undefined dissimilarity wins over a perfect one; a single
    bootstrap. -/
example : chooseRank 2 [4, 2, 3] (fun i _ _ => if i = 0 then .fin (0 : ℚ) else .nan) = .ok (2, [.fin 0, .nan, .nan]) ∧
    chooseRank 1 [4, 2] (fun i _ _ => if i = 0 then .fin (1 : ℚ) else .fin 0) = .ok (4, [.nan, .nan]) := by
  decide +kernel

/-- Ties are resolved in favour of the first rank. -/
example : chooseRank 3 [2, 3, 4] (fun i _ _ => if i = 0 then .fin (1 / 2 : ℚ) else .fin (1 / 4)) =
    .ok (3, [.fin (1 / 2), .fin (1 / 4), .fin (1 / 4)]) := by decide +kernel

/-! ### C57 -/

/-- **C57 (partial)**: when the clusterer numbers its clusters `0, ..., n-1` (and noise `-1`, as DBSCAN
    does), there is one component per cluster, namely the normalised consensus of exactly the
    normalised bases with that label; bases labelled as noise belong to no cluster.  Missing: other
    numberings (see the negation). -/
theorem C57_partial {fp : List (Fin d → ℝ) → Except PyErr (List Int)}
    {cm : List (Fin d → ℝ) → Fin d → ℝ} {bases comp : List (Fin d → ℝ)} {labels : List Int} {n : Nat}
    (h : consensus fp cm bases = .ok comp) (hfp : fp (preCluster bases) = .ok labels)
    (hc : Contiguous labels n) :
    comp.length = n ∧ ∀ c < n, ∃ rows, rows ≠ [] ∧ Members (preCluster bases) labels c rows ∧
      comp[c]? = some (normalizeRow (cm rows)) := by
  obtain ⟨labels', H', hfp', hl, hH', rfl⟩ := consensus_ok h
  rw [hfp] at hfp'
  cases hfp'
  have hlen := length_clusterIds hc
  obtain ⟨H2, h1, h2, h3, -⟩ := consLoop_contig
    (cons := fun c => cm (cluster (preCluster bases) labels c)) (ids := clusterIds labels)
    (H := List.replicate (clusterIds labels).length fun _ => 0)
    (fun c hc' => by
      obtain ⟨m1, m2⟩ := mem_clusterIds.1 hc'
      have := (hc c m2).1 m1
      rw [List.length_replicate, hlen]; exact this)
    (nodup_clusterIds _)
  rw [h1] at hH'
  cases hH'
  refine ⟨by rw [List.length_map, h2, List.length_replicate, hlen], fun c hcn => ?_⟩
  have hne : (c : Int) ≠ -1 := by omega
  have hmem : (c : Int) ∈ labels := (hc c hne).2 (by omega)
  have hM := cluster_members (preCluster bases) labels c hl
  refine ⟨cluster (preCluster bases) labels c, ?_, hM, ?_⟩
  · obtain ⟨idx, -, hi, hr⟩ := hM
    obtain ⟨i, hi', he⟩ := List.mem_iff_getElem.1 hmem
    have : i ∈ idx := (hi i).2 (by simp [hi', he])
    intro h0
    rw [h0, List.map_nil] at hr
    have := List.map_eq_nil_iff.1 hr.symm
    simp_all
  · have := h3 c (mem_clusterIds.2 ⟨hmem, hne⟩)
    simp only [Int.toNat_natCast] at this
    rw [List.getElem?_map, this]; rfl

/-- **C57 (nonnegative)**: whatever the clusterer does, if the solver delivers nonnegative bases and the
    consensus method keeps nonnegative rows nonnegative, every fitted component is nonnegative. -/
theorem C57_nonneg {e : Solvers d} {s s' : Est d} {X comp : List (Fin d → ℝ)}
    (hn : ∀ X n b H, e.nmf X n b = .ok H → ∀ k a, Nonneg (H k a)) (hm : KeepsNonneg e.consMeth)
    (h : fit e s X = .ok s') (hc : s'.components = some comp) : ∀ r ∈ comp, Nonneg r := by
  unfold fit at h
  split_ifs at h
  split at h
  · cases h
  rename_i ranks _
  split at h
  · cases h
  rename_i Hs hHs
  split at h
  · cases h
  rename_i bases hb
  split at h
  · cases h
  rename_i comp' hcons
  cases h
  simp only [Option.some.injEq] at hc
  subst hc
  have hH : ∀ b k a, Nonneg ((Hs.getD b fun _ _ _ => 0) k a) := by
    intro b k a
    by_cases hlt : b < Hs.length
    · have hg : Hs.getD b (fun _ _ _ => 0) = Hs[b] := by simp [List.getD, hlt]
      rw [hg]
      have hm' : Hs[b] ∈ Hs := List.getElem_mem _
      obtain ⟨b', -, hb'⟩ := mapE_mem hHs hm'
      exact hn _ _ _ _ hb' k a
    · have hg : Hs.getD b (fun _ _ _ => 0) = fun _ _ _ => 0 := by
        simp [List.getD, List.getElem?_eq_none (not_lt.1 hlt)]
      rw [hg]; exact fun j => le_refl _
  have hall : ∀ k, ∀ r ∈ (List.range s.nBoots).flatMap
      (fun b => List.ofFn ((Hs.getD b fun _ _ _ => 0) k)), Nonneg r := by
    intro k r hr
    obtain ⟨b, -, hr⟩ := List.mem_flatMap.1 hr
    obtain ⟨a, rfl⟩ := (List.mem_ofFn' _ _).1 hr
    exact hH b k a
  have hbases : ∀ r ∈ bases, Nonneg r := by
    unfold basesOf at hb
    simp only at hb
    split_ifs at hb
    · split at hb
      · cases hb
      · cases hb; exact hall _
    · cases hb
      intro r hr
      obtain ⟨k, -, hr⟩ := List.mem_flatMap.1 hr
      exact hall k r hr
  obtain ⟨labels, H', -, -, hH', rfl⟩ := consensus_ok hcons
  intro r hr
  obtain ⟨r', hr', rfl⟩ := List.mem_map.1 hr
  refine normalizeRow_nonneg ?_
  rcases (consLoop_spec hH').2 r' hr' with h0 | ⟨c, -, rfl⟩
  · rw [(List.mem_replicate.1 h0).2]; exact fun j => le_refl _
  · exact hm _ fun r hr => preCluster_nonneg hbases r (cluster_sub r hr)

/-- **C57 (mean and median)**: both consensus methods the documentation offers keep nonnegative rows
    nonnegative. -/
theorem C57_methods : KeepsNonneg (meanRows (d := d)) ∧ KeepsNonneg (medianRows (d := d)) := by
  constructor
  · intro rows h j
    refine div_nonneg (List.sum_nonneg fun x hx => ?_) (Nat.cast_nonneg _)
    obtain ⟨r, hr, rfl⟩ := List.mem_map.1 hx
    exact h r hr j
  · intro rows h j
    unfold medianRows
    by_cases h0 : rows = []
    · subst h0; simp [median]
    · exact (Fit.median_between (Fit.median_spec 0 (by simpa using h0))
        (lo := 0) (hi := ((rows.map fun r => r j).foldr max 0)) (fun x hx => by
          obtain ⟨r, hr, rfl⟩ := List.mem_map.1 hx
          exact h r hr j) (fun x hx => le_foldr_max hx)).1

/-- **C57 (unit length)**: with the mean as consensus, the components of a contiguous clustering of
    nonnegative bases have norm one: no component is zero. -/
theorem C57_unit {fp : List (Fin d → ℝ) → Except PyErr (List Int)} {bases comp : List (Fin d → ℝ)}
    {labels : List Int} {n : Nat} (hb : ∀ r ∈ bases, Nonneg r)
    (h : consensus fp meanRows bases = .ok comp) (hfp : fp (preCluster bases) = .ok labels)
    (hc : Contiguous labels n) : ∀ r ∈ comp, norm r = 1 := by
  obtain ⟨hlen, hrow⟩ := C57_partial h hfp hc
  intro r hr
  obtain ⟨i, hi, rfl⟩ := List.mem_iff_getElem.1 hr
  obtain ⟨rows, hne, ⟨idx, -, -, hmap⟩, hcomp⟩ := hrow i (hlen ▸ hi)
  rw [List.getElem?_eq_getElem hi, Option.some.injEq] at hcomp
  rw [hcomp]
  have hsub : ∀ r ∈ rows, r ∈ preCluster bases := by
    intro r hr
    have : some r ∈ rows.map some := List.mem_map_of_mem hr
    rw [hmap] at this
    obtain ⟨i, -, hi⟩ := List.mem_map.1 this
    exact List.mem_of_getElem? hi
  refine norm_normalizeRow ?_
  obtain ⟨r0, rs, rfl⟩ := List.exists_cons_of_ne_nil hne
  have hr0 := hsub r0 (List.mem_cons_self ..)
  have hunit := preCluster_unit r0 hr0
  have hnz : ∃ j, r0 j ≠ 0 := by
    by_contra hcon
    push Not at hcon
    rw [norm_eq_zero.2 hcon] at hunit
    exact zero_ne_one hunit
  obtain ⟨j, hj⟩ := hnz
  refine ⟨j, ne_of_gt ?_⟩
  have hnn := preCluster_nonneg hb
  have hpos : 0 < r0 j := lt_of_le_of_ne (hnn r0 hr0 j) (Ne.symm hj)
  unfold meanRows
  refine div_pos ?_ (by simp; positivity)
  rw [List.map_cons, List.sum_cons]
  refine add_pos_of_pos_of_nonneg hpos (List.sum_nonneg fun x hx => ?_)
  obtain ⟨r, hr, rfl⟩ := List.mem_map.1 hx
  exact hnn r (hsub r (List.mem_cons_of_mem _ hr)) j

/-- **C57 (negation)**: if the clusterer also uses the label `-2`, a component can be a zero row, which
    is the consensus of no cluster.  (With the labels `0` and `2` the fit fails.) -/
theorem C57_negation :
    (∃ comp, consensus (d := 1) (fun _ => .ok [-2, 0]) meanRows [fun _ => 1, fun _ => 1] = .ok comp ∧
      ∃ r ∈ comp, ∀ j, r j = 0) ∧
    consensus (d := 1) (fun _ => .ok [0, 2]) meanRows [fun _ => 1, fun _ => 1] =
      .error .indexError := by
  have hn : normalizeRow (d := 1) (fun _ => 1) = fun _ => 1 := by
    funext j
    simp [normalizeRow, norm]
  have hp : preCluster (d := 1) [fun _ => 1, fun _ => 1] = [fun _ => 1, fun _ => 1] := by
    simp [preCluster, hn]
  have i1 : clusterIds [-2, 0] = [-2, 0] := by decide
  have i2 : clusterIds [0, 2] = [0, 2] := by decide
  constructor
  · have hc : ∃ r0, consensus (d := 1) (fun _ => .ok [-2, 0]) meanRows [fun _ => 1, fun _ => 1] =
        .ok [r0, normalizeRow fun _ => 0] := by
      simp only [consensus, hp, i1]
      simp [consLoop, setRow]
    obtain ⟨r0, hc⟩ := hc
    refine ⟨_, hc, normalizeRow fun _ => 0, by simp, fun j => ?_⟩
    simp [normalizeRow, norm]
  · simp only [consensus, hp, i2]
    simp [consLoop, setRow]

/-- Two clusters and a noise base. -/
example : Contiguous [0, 1, -1, 0] 2 := by
  intro c hc
  simp only [List.mem_cons, List.not_mem_nil, or_false]
  omega

/-! ### C60 -/

/-- **C60 (negation, set_params)**: no estimator a program can construct has working `get_params` or
    `set_params`: both always fail with `AttributeError`. -/
theorem C60_negation_set_params {s : Est d} (h : Reachable d s) (cls : Cls) (kw : List String)
    (rest : Est d → Except PyErr (Est d)) :
    getParams cls s = .error .attributeError ∧ setParams cls s kw rest = .error .attributeError := by
  have hg : getParams cls s = .error .attributeError := by
    unfold getParams
    rw [if_neg]
    intro hc
    exact (reachable_attrs h).1 (hc "random_state" (by cases cls <;> decide))
  exact ⟨hg, by unfold setParams; rw [hg]⟩

/-- **C60 (negation, defaults)**: the estimator constructed with default arguments cannot be fitted to
    any data, whatever the solvers do. -/
theorem C60_negation : ∃ s, init d {} = .ok s ∧
    ∀ (e : Solvers d) (X : List (Fin d → ℝ)), (∀ r ∈ X, Nonneg r) →
      fit e s X = .error .attributeError := by
  refine ⟨_, rfl, fun e X hX => ?_⟩
  unfold fit
  exact if_neg (not_not.2 hX)

/-- **C60 (partial)**: with a nonempty list of ranks, on nonnegative data, the fit succeeds if the
    solver succeeds on every bootstrap and the clusterer finds at least one cluster, numbered
    contiguously, whenever it is given rows, and at least one basis is not zero.  Missing: the default
    `ranks=None` and `set_params` (see the negations). -/
theorem C60_partial {e : Solvers d} {a : InitArgs} {ranks : List Nat} {X : List (Fin d → ℝ)}
    (ha : a.ranks = .seq ranks) (hr : ranks ≠ []) (h1 : a.nmf ≠ .cls) (h2 : a.cluster ≠ .cls)
    (h3 : a.nnreg ≠ .other) (h4 : a.seed ≠ .other) (hb : 2 ≤ a.nBoots) (hX : ∀ r ∈ X, Nonneg r)
    (hs : ∀ b < a.nBoots, ∃ H, e.nmf X a.nBoots b = .ok H ∧ ∀ k ∈ ranks, ∃ i, ∑ j, H k i j ≠ 0)
    (hc : ∀ H, H ≠ [] → ∃ labels n, e.fitPredict H = .ok labels ∧ labels.length = H.length ∧
      0 < n ∧ Contiguous labels n) :
    ∃ s s' comp, init d a = .ok s ∧ fit e s X = .ok s' ∧ s'.components = some comp ∧ comp ≠ [] := by
  have hinit : ∃ s, init d a = .ok s ∧ s.ranks = some ranks ∧ s.nBoots = a.nBoots := by
    unfold init
    simp only [ha, ranksOf]
    rw [if_neg h1, if_neg h2, if_neg h3, if_neg h4, if_neg (by omega)]
    exact ⟨_, rfl, rfl, rfl⟩
  obtain ⟨s, hs0, hs1, hs2⟩ := hinit
  have hH : ∃ Hs, allBases e X a.nBoots = .ok Hs ∧ Hs.length = a.nBoots ∧
      ∀ b (h : b < Hs.length), e.nmf X a.nBoots b = .ok Hs[b] := by
    have : ∀ l : List Nat, (∀ b ∈ l, ∃ H, e.nmf X a.nBoots b = .ok H) →
        ∃ Hs, mapE (fun b => e.nmf X a.nBoots b) l = .ok Hs := by
      intro l
      induction l with
      | nil => exact fun _ => ⟨[], rfl⟩
      | cons b bs ih =>
        intro h
        obtain ⟨H, hH⟩ := h b (List.mem_cons_self ..)
        obtain ⟨Hs, hHs⟩ := ih fun b' hb' => h b' (List.mem_cons_of_mem _ hb')
        exact ⟨H :: Hs, by rw [mapE, hH, hHs]⟩
    obtain ⟨Hs, hHs⟩ := this (List.range a.nBoots) fun b hb' =>
      (hs b (List.mem_range.1 hb')).imp fun _ => And.left
    have hf := mapE_ok_iff.1 hHs
    have hl : Hs.length = a.nBoots := by rw [← hf.length_eq]; simp
    refine ⟨Hs, hHs, hl, fun b h => ?_⟩
    have := (List.forall₂_iff_get.1 hf).2 b (by simpa using hl ▸ h) h
    simpa using this
  obtain ⟨Hs, hHs, hHl, hHb⟩ := hH
  have h0 : 0 < Hs.length := by omega
  have hall : ∀ k ∈ ranks, preCluster ((List.range a.nBoots).flatMap
      (fun b => List.ofFn ((Hs.getD b fun _ _ _ => 0) k))) ≠ [] := by
    intro k hk
    obtain ⟨H, hH, hz⟩ := hs 0 (by omega)
    obtain ⟨i, hi⟩ := hz k hk
    have he : Hs.getD 0 (fun _ _ _ => 0) = H := by
      have := hHb 0 h0
      rw [hH] at this
      cases this
      simp [List.getD, h0]
    have hmem : H k i ∈ (List.range a.nBoots).flatMap
        (fun b => List.ofFn ((Hs.getD b fun _ _ _ => 0) k)) := by
      refine List.mem_flatMap.2 ⟨0, List.mem_range.2 (by omega), ?_⟩
      rw [he]
      exact (List.mem_ofFn' _ _).2 ⟨i, rfl⟩
    intro hn
    unfold preCluster at hn
    rw [List.map_eq_nil_iff] at hn
    exact List.filter_eq_nil_iff.1 hn _ hmem (by simpa using hi)
  have hbases : ∃ bases, basesOf a.nBoots ranks s.useDiss
      (fun b => Hs.getD b fun _ _ _ => 0) = .ok bases ∧ preCluster bases ≠ [] := by
    unfold basesOf
    simp only
    split_ifs
    · obtain ⟨⟨k, g⟩, hk⟩ := chooseRank_ok a.nBoots hr fun i b b' =>
        dissimilarity ((Hs.getD b fun _ _ _ => 0) (ranks.getD i 0))
          ((Hs.getD b' fun _ _ _ => 0) (ranks.getD i 0))
      refine ⟨_, by rw [hk], hall k ?_⟩
      unfold chooseRank at hk
      simp only at hk
      split at hk
      · cases hk
      split at hk
      · cases hk
      · rename_i hk'
        cases hk
        exact List.mem_of_getElem? hk'
    · refine ⟨_, rfl, ?_⟩
      obtain ⟨k, ks, rfl⟩ := List.exists_cons_of_ne_nil hr
      have := hall k (List.mem_cons_self ..)
      unfold preCluster at this ⊢
      rw [List.flatMap_cons, List.filter_append, List.map_append]
      exact fun h => this (List.append_eq_nil_iff.1 h).1
  obtain ⟨bases, hbs, hne⟩ := hbases
  obtain ⟨labels, n, hl1, hl2, hn0, hcon⟩ := hc _ hne
  have hcons : ∃ comp, consensus e.fitPredict e.consMeth bases = .ok comp ∧ comp ≠ [] := by
    obtain ⟨H', c1, c2, -, -⟩ := consLoop_contig
      (cons := fun c => e.consMeth (cluster (preCluster bases) labels c)) (ids := clusterIds labels)
      (H := List.replicate (clusterIds labels).length fun _ => 0)
      (fun c hc' => by
        obtain ⟨m1, m2⟩ := mem_clusterIds.1 hc'
        have := (hcon c m2).1 m1
        rw [List.length_replicate, length_clusterIds hcon]; exact this)
      (nodup_clusterIds _)
    have hlen : H'.length = n := by rw [c2, List.length_replicate, length_clusterIds hcon]
    refine ⟨H'.map normalizeRow, ?_, fun h => ?_⟩
    · unfold consensus
      simp only [hl1]
      rw [if_neg (fun h => hne (List.length_eq_zero_iff.1 h)), if_neg (not_not.2 hl2)]
      simp only [c1]
      rw [if_neg (by omega)]
    · rw [List.map_eq_nil_iff] at h
      rw [h] at hlen
      simp at hlen
      omega
  obtain ⟨comp, hcomp, hcne⟩ := hcons
  have hX' : ∀ r ∈ X, ∀ j, 0 ≤ r j := hX
  refine ⟨s, { s with
    attrs := s.attrs ++ ["n_components", "dissimilarity_", "reconstruction_err_"]
    components := some comp }, comp, hs0, ?_, rfl, hcne⟩
  unfold fit
  rw [if_neg (not_not.2 hX')]
  simp only [hs1, hs2, hHs, hbs, hcomp]

/-- One cluster containing everything. -/
example (H : List (Fin 2 → ℝ)) (h : H ≠ []) :
    ∃ labels n, (Except.ok (H.map fun _ => 0) : Except PyErr (List Int)) = .ok labels ∧
      labels.length = H.length ∧ 0 < n ∧ Contiguous labels n := by
  refine ⟨_, 1, rfl, by simp, by omega, fun c hc => ?_⟩
  rw [List.mem_map]
  constructor
  · rintro ⟨_, _, rfl⟩; decide
  · rintro ⟨h1, h2⟩
    obtain ⟨x, xs, rfl⟩ := List.exists_cons_of_ne_nil h
    exact ⟨x, List.mem_cons_self .., by omega⟩

/-! ### C61 -/

/-- **C61 (before fit)**: `transform` and `inverse_transform` of an estimator that was only constructed
    raise, whatever the data. -/
theorem C61_unfitted {a : InitArgs} {s : Est d} (h : init d a = .ok s) {m : Nat}
    (nnreg : List (Fin d → ℝ) → (Fin m → ℝ) → List ℝ) (dt : DT) (X W : List (Fin m → ℝ)) :
    transform nnreg s dt X = .error .attributeError ∧
      inverseTransform s W = .error .attributeError := by
  have : "components_" ∈ s.attrs ∧ s.components = none := by
    unfold init at h
    split at h
    · cases h
    split_ifs at h
    all_goals cases h; simp
  unfold transform inverseTransform
  rw [if_neg (not_not.2 this.1), if_neg (not_not.2 this.1), this.2]
  exact ⟨rfl, rfl⟩

/-- **C61 (partial)**: after a fit, for float data with the right number of columns, `transform`
    returns for every sample exactly the weights the regressor finds for the components, so they are
    nonnegative if the regressor's are.  A wrong number of columns raises.  Missing: integer data. -/
theorem C61_partial {e : Solvers d} {s s' : Est d} {X0 : List (Fin d → ℝ)} (hr : Reachable d s)
    (h : fit e s X0 = .ok s') :
    ∃ comp, s'.components = some comp ∧
      (∀ (nnreg : List (Fin d → ℝ) → (Fin d → ℝ) → List ℝ) (X : List (Fin d → ℝ)),
        ∃ W, transform nnreg s' .float X = .ok W ∧ W.length = X.length ∧
          (∀ i (hi : i < X.length), W[i]? = some (nnreg comp X[i])) ∧
          ((∀ x, ∀ v ∈ nnreg comp x, 0 ≤ v) → ∀ w ∈ W, ∀ v ∈ w, 0 ≤ v)) ∧
      ∀ (m : Nat) (nnreg : List (Fin d → ℝ) → (Fin m → ℝ) → List ℝ) (dt : DT) (X : List (Fin m → ℝ)),
        m ≠ d → transform nnreg s' dt X = .error .valueError := by
  have hattr : "components_" ∈ s'.attrs := by
    have : Reachable d s' := .fit hr h
    clear h hr
    induction this with
    | @init a s h =>
      unfold Nmf.init at h
      split at h
      · cases h
      split_ifs at h
      all_goals cases h; simp
    | @fit s s' e X _ h ih =>
      unfold Nmf.fit at h
      split_ifs at h
      repeat' split at h
      all_goals cases h
      exact List.mem_append_left _ ih
    | @setParams s s' cls kw rest hr h ih =>
      rw [(C60_negation_set_params hr cls kw rest).2] at h
      cases h
  have hcomp : ∃ comp, s'.components = some comp := by
    unfold fit at h
    split_ifs at h
    repeat' split at h
    all_goals cases h
    exact ⟨_, rfl⟩
  obtain ⟨comp, hc⟩ := hcomp
  refine ⟨comp, hc, fun nnreg X => ⟨X.map fun x => nnreg comp x, ?_, by simp, fun i hi => by simp [hi], ?_⟩, ?_⟩
  · unfold transform
    rw [if_neg (not_not.2 hattr), hc]
    simp only [ne_eq, not_true_eq_false, if_false]
    have hst : store .float = id := by funext x; rfl
    simp only [hst, List.map_id]
  · intro hn w hw v hv
    obtain ⟨x, -, rfl⟩ := List.mem_map.1 hw
    exact hn x v hv
  · intro m nnreg dt X hm
    unfold transform
    rw [if_neg (not_not.2 hattr), hc]
    simp only [if_pos hm]

/-- **C61 (negation)**: for integer data the weights are truncated: with the component `(3/5, 4/5)` the
    integer sample `(1, 0)` has the weight `3/5`, and `transform` returns `0`. -/
theorem C61_negation {s : Est 2} {comp : List (Fin 2 → ℝ)} (hcomp : comp = [![3 / 5, 4 / 5]])
    (hc : s.components = some comp) (ha : "components_" ∈ s.attrs)
    {nnreg : List (Fin 2 → ℝ) → (Fin 2 → ℝ) → List ℝ} (hn : IsNnls nnreg) :
    transform nnreg s .float [![1, 0]] = .ok [[3 / 5]] ∧
      transform nnreg s .int [![1, 0]] = .ok [[0]] := by
  have h0 : nnreg comp ![1, 0] = [3 / 5] := by
    obtain ⟨h1, -, h3⟩ := hn comp ![1, 0]
    subst hcomp
    obtain ⟨v, hv⟩ := List.length_eq_one_iff.1 h1
    have h4 := h3 [3 / 5] rfl (by simp; norm_num)
    rw [hv] at h4 ⊢
    simp only [sqResidual, Fin.sum_univ_two, List.zip_cons_cons, List.zip_nil_left, List.map_cons,
      List.map_nil, List.sum_cons, List.sum_nil, Matrix.cons_val_zero, Matrix.cons_val_one] at h4
    have h5 : (v - 3 / 5) ^ 2 ≤ 0 := by nlinarith
    have h6 : v - 3 / 5 = 0 := pow_eq_zero_iff (two_ne_zero) |>.1 (le_antisymm h5 (sq_nonneg _))
    rw [show v = 3 / 5 by linarith]
  have h2 : store .int (3 / 5) = 0 := by
    simp only [store]
    rw [if_pos (by norm_num)]
    have : ⌊(3 / 5 : ℝ)⌋ = 0 := by rw [Int.floor_eq_zero_iff]; constructor <;> norm_num
    rw [this]; simp
  unfold transform
  rw [if_neg (not_not.2 ha), if_neg (not_not.2 ha), hc]
  simp only [ne_eq, not_true_eq_false, if_false, List.map_cons, List.map_nil, h0, h2]
  exact ⟨rfl, trivial⟩

/-- The component has norm one, as after a fit. -/
example : norm ![3 / 5, 4 / 5] = 1 := by
  simp only [norm, Fin.sum_univ_two, Matrix.cons_val_zero, Matrix.cons_val_one]
  rw [show ((3 / 5 : ℝ) ^ 2 + (4 / 5) ^ 2) = 1 by norm_num, Real.sqrt_one]

/-! ### C77 -/

/-- **C77 (partial)**: `UoI_NMF_Base` uses the solver, clusterer, regressor and consensus method it is
    given, and its documented defaults for those it is not; `UoI_NMF` builds solver and clusterer from its other keyword arguments, and without
    `db_min_samples` asks for half of the bootstraps, at least one.  Missing: `C77_negation`. -/
theorem C77_partial {N C R M : Type} (w : Parts.World N C R M) :
    (∀ (nBoots : Nat) (a : PartArgs N C R M),
      (∀ x, a.nmf = some x → (baseParts w nBoots a).nmf = x) ∧
      (∀ x, a.cluster = some x → (baseParts w nBoots a).cluster = x) ∧
      (∀ x, a.nnreg = some x → (baseParts w nBoots a).nnreg = x) ∧
      (∀ x, a.consMeth = some x → (baseParts w nBoots a).consMeth = x) ∧
      (a.nmf = none → (baseParts w nBoots a).nmf = w.nmf ⟨"random", "mu", "kullback-leibler", 1 / 10000, 400⟩) ∧
      (a.cluster = none → ∃ m, (baseParts w nBoots a).cluster = w.dbscan ⟨1 / 2, m, "euclidean", none, "auto", 30⟩ ∧
        1 ≤ m ∧ nBoots ≤ 2 * m + 1 ∧ (2 ≤ nBoots → 2 * m ≤ nBoots)) ∧
      (a.nnreg = none → (baseParts w nBoots a).nnreg = w.nnls) ∧
      (a.consMeth = none → (baseParts w nBoots a).consMeth = w.mean)) ∧
    ∀ a : UoiNmfArgs N C R M,
      (uoiNmfParts w a).nmf = w.nmf ⟨a.nmfInit, a.nmfSolver, a.nmfBetaLoss, a.nmfTol, a.nmfMaxIter⟩ ∧
      ∃ m leaf, (uoiNmfParts w a).cluster =
          w.dbscan ⟨a.dbEps, m, a.dbMetric, a.dbMetricParams, a.dbAlgorithm, leaf⟩ ∧
        (∀ k, a.dbMinSamples = some k → m = k) ∧
        (a.dbMinSamples = none → 1 ≤ m ∧ a.nBoots ≤ 2 * m + 1 ∧ (2 ≤ a.nBoots → 2 * m ≤ a.nBoots)) ∧
        (a.dbLeafSize = 30 → leaf = a.dbLeafSize) := by
  refine ⟨fun nBoots a => ⟨fun x h => by simp [baseParts, h], fun x h => by simp [baseParts, h],
    fun x h => by simp [baseParts, h], fun x h => by simp [baseParts, h], fun h => by simp [baseParts, h],
    fun h => ⟨max (nBoots / 2) 1, by simp [baseParts, h], by omega⟩, fun h => by simp [baseParts, h],
    fun h => by simp [baseParts, h]⟩, fun a => ⟨rfl, _, _, rfl, fun k h => ?_, fun h => ?_, fun h => h.symm⟩⟩
  · simp [h]
  · simp only [h, Option.getD_none]
    omega

/-- **C77 (negation)**: `UoI_NMF` ignores the solver, clusterer, regressor, consensus method and leaf
    size it is given: it ends up with the same parts as without them. -/
theorem C77_negation {N C R M : Type} (w : Parts.World N C R M) (a : UoiNmfArgs N C R M) (nmf : N) (cl : C)
    (nn : R) (cm : M) (leaf : Nat) :
    uoiNmfParts w { a with nmf := some nmf, cluster := some cl, nnreg := some nn, consMeth := some cm
                           dbLeafSize := leaf } =
      uoiNmfParts w { a with nmf := none, cluster := none, nnreg := none, consMeth := none, dbLeafSize := 30 } := rfl

/-- A median, a regressor and a leaf size asked for are replaced by the defaults. -/
example : uoiNmfParts (⟨fun c => c, fun c => c, "nnls", "mean"⟩ : Parts.World SkNmf Dbscan String String)
      { nBoots := 7, nnreg := some "lasso", consMeth := some "median", dbLeafSize := 5, dbEps := 1 / 4 } =
    ⟨⟨"random", "mu", "kullback-leibler", 1 / 10000, 400⟩, ⟨1 / 4, 3, "euclidean", none, "auto", 30⟩,
      "nnls", "mean"⟩ := rfl

/-! ### C78 -/

/-- **C78 (partial)**: float samples that are nonnegative combinations of the components are recovered
    exactly by `inverse_transform(transform(X))` when the regressor solves the nonnegative least
    squares problem.  Weights with another number of columns than there are components are a
    `ValueError`.  Missing: integer data. -/
theorem C78_partial {s : Est d} {comp : List (Fin d → ℝ)} (hc : s.components = some comp)
    (ha : "components_" ∈ s.attrs) {nnreg : List (Fin d → ℝ) → (Fin d → ℝ) → List ℝ}
    (hn : IsNnls nnreg) {X : List (Fin d → ℝ)}
    (hX : ∀ x ∈ X, ∃ w : List ℝ, w.length = comp.length ∧ (∀ v ∈ w, 0 ≤ v) ∧ sqResidual comp x w = 0) :
    (∃ W : List (Fin comp.length → ℝ), transform nnreg s .float X = .ok (W.map List.ofFn) ∧
      inverseTransform s W = .ok X) ∧
    ∀ q, q ≠ comp.length → ∀ W : List (Fin q → ℝ), inverseTransform s W = .error .valueError := by
  refine ⟨?_, fun q hq W => by
    unfold inverseTransform
    rw [if_neg (not_not.2 ha), hc]
    simp only [ne_eq, hq, not_false_eq_true, if_true]⟩
  have hst : store .float = id := by funext x; rfl
  have hlen := fun x => (hn comp x).1
  refine ⟨X.map fun x c => (nnreg comp x)[c.val]'(by rw [hlen]; exact c.2), ?_, ?_⟩
  · unfold transform
    rw [if_neg (not_not.2 ha), hc]
    simp only [ne_eq, not_true_eq_false, if_false, hst, List.map_id, List.map_map]
    congr 1
    refine List.map_congr_left fun x _ => ?_
    apply List.ext_getElem
    · simp [hlen]
    · intro i h1 h2; simp
  · unfold inverseTransform
    rw [if_neg (not_not.2 ha), hc]
    simp only [ne_eq, not_true_eq_false, if_false, List.map_map]
    congr 1
    conv_rhs => rw [← List.map_id X]
    refine List.map_congr_left fun x hx => ?_
    funext j
    simp only [Function.comp, id]
    rw [zip_sum comp _ rfl]
    obtain ⟨w, hw1, hw2, hw3⟩ := hX x hx
    have hle := (hn comp x).2.2 w hw1 hw2
    rw [hw3] at hle
    have h0 : sqResidual comp x (nnreg comp x) = 0 :=
      le_antisymm hle (Finset.sum_nonneg fun _ _ => sq_nonneg _)
    rw [residual_zero.1 h0 j]
    congr 2
    congr 1
    apply List.ext_getElem
    · simp [hlen]
    · intro i h1 h2; simp

/-- **C78 (negation)**: integer samples in the cone are not recovered: `(1, 2)` is `5/3` of the component
    `(3/5, 4/5)` and `2/3` of `(0, 1)`; the weights are truncated to `1` and `0`. -/
theorem C78_negation {s : Est 2} {comp : List (Fin 2 → ℝ)} (hcomp : comp = [![3 / 5, 4 / 5], ![0, 1]])
    (hc : s.components = some comp) (ha : "components_" ∈ s.attrs)
    {nnreg : List (Fin 2 → ℝ) → (Fin 2 → ℝ) → List ℝ} (hn : IsNnls nnreg) :
    sqResidual comp ![1, 2] [5 / 3, 2 / 3] = 0 ∧
    ∃ W : List (Fin 2 → ℝ), transform nnreg s .int [![1, 2]] = .ok (W.map List.ofFn) ∧
      inverseTransform s W = .ok [![3 / 5, 4 / 5]] := by
  have hres : sqResidual comp ![1, 2] [5 / 3, 2 / 3] = 0 := by
    subst hcomp
    simp [sqResidual, Fin.sum_univ_two]
    norm_num
  refine ⟨hres, ?_⟩
  have h0 : nnreg comp ![1, 2] = [5 / 3, 2 / 3] := by
    obtain ⟨h1, -, h3⟩ := hn comp ![1, 2]
    have h4 := h3 [5 / 3, 2 / 3] (by rw [hcomp]; rfl) (by simp; norm_num)
    rw [hres] at h4
    have h5 : sqResidual comp ![1, 2] (nnreg comp ![1, 2]) = 0 :=
      le_antisymm h4 (Finset.sum_nonneg fun _ _ => sq_nonneg _)
    subst hcomp
    obtain ⟨u, v, huv⟩ := List.length_eq_two.1 h1
    rw [huv] at h5 ⊢
    have e0 := residual_zero.1 h5 0
    have e1 := residual_zero.1 h5 1
    simp at e0 e1
    have hu : u = 5 / 3 := by linarith
    subst hu
    have hv : v = 2 / 3 := by linarith
    rw [hv]
  have hf1 : store .int (5 / 3) = 1 := by
    simp only [store]
    rw [if_pos (by norm_num)]
    have : ⌊(5 / 3 : ℝ)⌋ = 1 := by rw [Int.floor_eq_iff]; constructor <;> norm_num
    rw [this]; simp
  have hf2 : store .int (2 / 3) = 0 := by
    simp only [store]
    rw [if_pos (by norm_num)]
    have : ⌊(2 / 3 : ℝ)⌋ = 0 := by rw [Int.floor_eq_zero_iff]; constructor <;> norm_num
    rw [this]; simp
  refine ⟨[![1, 0]], ?_, ?_⟩
  · unfold transform
    rw [if_neg (not_not.2 ha), hc]
    simp [h0, hf1, hf2]
  · unfold inverseTransform
    rw [if_neg (not_not.2 ha), hc, hcomp]
    simp [Fin.sum_univ_two]

/-! ### C96: the constructor -/

/-- **C96 (partial)**: apart from `random_state` the constructor refuses exactly what the documentation
    excludes: `ranks` that are neither an integer nor a sequence, classes in place of solver and
    clusterer, a regressor that is neither an estimator nor callable, and one bootstrap with
    `use_dissimilarity`; an integer `ranks` means the ranks 2, ..., `ranks` in this order and a
    sequence is kept as it is.  Missing: seeds that are NumPy integers (see the negation). -/
theorem C96_partial (a : InitArgs) (hs : a.seed ≠ .other) :
    ((∃ s, init d a = .ok s) ↔ a.ranks ≠ .other ∧ a.nmf ≠ .cls ∧ a.cluster ≠ .cls ∧ a.nnreg ≠ .other ∧
      ¬ (a.nBoots = 1 ∧ a.useDiss = true)) ∧
    (∀ e, init d a = .error e → e = .valueError) ∧
    ∀ s, init d a = .ok s → s.nBoots = a.nBoots ∧ s.useDiss = a.useDiss ∧ s.components = none ∧
      (∀ z, a.ranks = .int z → ∃ l, s.ranks = some l ∧ l.Pairwise (· < ·) ∧ ∀ k : Nat, k ∈ l ↔ 2 ≤ k ∧ (k : Int) ≤ z) ∧
      (∀ l, a.ranks = .seq l → s.ranks = some l) := by
  have hr : (∃ r, ranksOf a.ranks = .ok r) ↔ a.ranks ≠ .other := by
    cases a.ranks <;> simp [ranksOf]
  refine ⟨?_, ?_, ?_⟩
  · cases h : ranksOf a.ranks with
    | error e =>
      rw [h] at hr
      simp only [init, h]
      constructor
      · rintro ⟨s, hs⟩; cases hs
      · rintro ⟨h1, -⟩
        obtain ⟨r, hr⟩ := hr.2 h1
        cases hr
    | ok r =>
      have h0 : a.ranks ≠ .other := hr.1 ⟨r, h⟩
      simp only [init, h]
      constructor
      · rintro ⟨s, hs'⟩
        split_ifs at hs' with h1 h2 h3 h4 <;> exact ⟨h0, h1, h2, h3, h4⟩
      · rintro ⟨-, h1, h2, h3, h5⟩
        rw [if_neg h1, if_neg h2, if_neg h3, if_neg hs, if_neg h5]
        exact ⟨_, rfl⟩
  · intro e he
    cases h : ranksOf a.ranks with
    | error e' =>
      simp only [init, h] at he
      cases he
      revert h
      cases a.ranks <;> simp [ranksOf]
      exact fun h => h.symm
    | ok r =>
      simp only [init, h] at he
      split_ifs at he <;> cases he <;> rfl
  · intro s h
    cases hro : ranksOf a.ranks with
    | error e' => simp only [init, hro] at h; cases h
    | ok r =>
      simp only [init, hro] at h
      have hs' : s.nBoots = a.nBoots ∧ s.useDiss = a.useDiss ∧ s.components = none ∧ s.ranks = r := by
        split_ifs at h <;> cases h <;> exact ⟨rfl, rfl, rfl, rfl⟩
      obtain ⟨e1, e2, e3, e4⟩ := hs'
      refine ⟨e1, e2, e3, fun z hz => ?_, fun l hl => ?_⟩
      · rw [hz] at hro
        cases hro
        refine ⟨_, e4, ?_, fun k => ?_⟩
        · rw [List.pairwise_map]
          exact List.pairwise_lt_range.imp fun h => by omega
        · simp only [List.mem_map, List.mem_range]
          constructor
          · rintro ⟨i, hi, rfl⟩; omega
          · rintro ⟨h1, h2⟩; exact ⟨k - 2, by omega, by omega⟩
      · rw [hl] at hro
        cases hro
        exact e4

-- Five bootstraps, ranks up to 4, an instance as solver: accepted, with the ranks 2, 3, 4.
example : ∃ s : Est 3, init 3 { nBoots := 5, ranks := .int 4, nmf := .inst } = .ok s ∧ s.ranks = some [2, 3, 4] :=
  ⟨_, rfl, rfl⟩

-- One bootstrap is accepted without `use_dissimilarity` only.
example : (∃ s, init 3 { nBoots := 1, ranks := .int 4, useDiss := false } = .ok s) ∧
    ¬ ∃ s, init 3 { nBoots := 1, ranks := .int 4 } = .ok s :=
  ⟨(C96_partial _ (by decide)).1.2 (by decide), fun h => ((C96_partial _ (by decide)).1.1 h).2.2.2.2 (by decide)⟩

/-- **C96 (negation)**: a seed that is not a Python integer (a NumPy integer, for example) makes the
    constructor raise `AttributeError`, with all other arguments at their defaults. -/
theorem C96_negation : init d { seed := .other } = .error .attributeError := rfl

end Verif.Nmf
