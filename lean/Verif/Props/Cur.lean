import Mathlib.Algebra.Order.Field.Basic
import Mathlib.Algebra.Order.BigOperators.Ring.Finset
import Mathlib.Tactic.Positivity
import Mathlib.Tactic.Linarith
import Mathlib.Tactic.NormNum
import Verif.Model.Cur
import Verif.Spec.Cur
import Verif.Lemmas.Cur
/-!
Properties of the column selection and the CUR decomposition (C51-C56).
-/
namespace Verif.Cur
open Verif.Py Verif.Spec.Cur
variable {K : Type} [Field K] [LinearOrder K]

/-! ### C51 -/

/-- **C51**: without sorting by leverage, `column_select` returns strictly increasing valid indices,
    for every expected number of columns, every `random_state` and all draws. -/
theorem C51_valid (argsort : List K → List Nat) {d : Nat} (V : Fin d → Nat → K) (k : Nat) (c : Ext K)
    (rs : RandomState) (u : Nat → K) :
    (columnSelect argsort V k c false rs u).Pairwise (· < ·) ∧
      ∀ i ∈ columnSelect argsort V k c false rs u, i < d :=
  ⟨flagged_sorted V k c u, flagged_lt V k c u⟩

/-- **C51**: a column is returned exactly when its number is below `c` times its share of the leverage;
    in particular always when that product is at least one, and never when the share is zero. -/
theorem C51_drawn [IsStrictOrderedRing K] (argsort : List K → List Nat) {d : Nat}
    (V : Fin d → Nat → K) (k : Nat) (c : K) (rs : RandomState) (u : Nat → K) (hu : Uniform u)
    (i : Fin d) :
    (i.val ∈ columnSelect argsort V k (.fin c) false rs u ↔ u i < c * share V k i) ∧
    (1 ≤ c * share V k i → i.val ∈ columnSelect argsort V k (.fin c) false rs u) ∧
    (share V k i = 0 → i.val ∉ columnSelect argsort V k (.fin c) false rs u) := by
  have key : i.val ∈ columnSelect argsort V k (.fin c) false rs u ↔ u i < c * share V k i := by
    show i.val ∈ flagged V k (.fin c) u ↔ _
    rw [mem_flagged, mulE, minOne_fin]
    exact ⟨fun h => h.2, fun h => ⟨(hu i).2, h⟩⟩
  refine ⟨key, fun h => key.2 (lt_of_lt_of_le (hu i).2 h), fun h => ?_⟩
  rw [key, h, mul_zero, not_lt]
  exact (hu i).1

/-- **C51**: for the same draws, a larger expected number of columns selects a superset. -/
theorem C51_monotone [IsStrictOrderedRing K] (argsort : List K → List Nat) {d : Nat}
    (V : Fin d → Nat → K) (k : Nat) {c c' : K} (hc : c ≤ c') (rs : RandomState) (u : Nat → K) :
    columnSelect argsort V k (.fin c) false rs u ⊆ columnSelect argsort V k (.fin c') false rs u := by
  intro i hi
  have hi' : i ∈ flagged V k (.fin c) u := hi
  have hlt := flagged_lt V k (.fin c) u i hi'
  show i ∈ flagged V k (.fin c') u
  have h1 := (mem_flagged V k (.fin c) u ⟨i, hlt⟩).1 hi'
  refine (mem_flagged V k (.fin c') u ⟨i, hlt⟩).2 ?_
  simp only [mulE, minOne_fin] at h1 ⊢
  exact ⟨h1.1, lt_of_lt_of_le h1.2 (mul_le_mul_of_nonneg_right hc (leverage_nonneg V k _))⟩

/-- **C51 (sorted)**: with `leverage_sort=True` the same columns are returned, in the order of their
    leverage. -/
theorem C51_sorted (argsort : List K → List Nat) (ha : Argsort argsort) {d : Nat}
    (V : Fin d → Nat → K) (k : Nat) (c : Ext K) (rs : RandomState) (u : Nat → K) :
    (columnSelect argsort V k c true rs u).Perm (columnSelect argsort V k c false rs u) ∧
    ((columnSelect argsort V k c true rs u).map fun i =>
      if h : i < d then share V k ⟨i, h⟩ else 0).Pairwise (· ≤ ·) := by
  simp only [columnSelect, if_true]
  set idx := flagged V k c u with hidx
  obtain ⟨hp, hs⟩ := ha (idx.map (leverageAt V k))
  rw [List.length_map] at hp
  constructor
  · have h1 := hp.map fun j => idx.getD j 0
    have h2 : (List.range idx.length).map (fun j => idx.getD j 0) = idx := by
      refine List.ext_getElem (by simp) fun j h1 h2 => ?_
      simp [List.getD, h2]
    rw [h2] at h1
    exact h1
  · rw [List.map_map]
    rw [List.pairwise_map] at hs ⊢
    refine hs.imp_of_mem ?_
    intro a b ha hb hab
    have la : a < idx.length := List.mem_range.1 (hp.subset ha)
    have lb : b < idx.length := List.mem_range.1 (hp.subset hb)
    simp only [List.getD, List.getElem?_map, la, lb, List.getElem?_eq_getElem, Option.map_some,
      Option.getD_some] at hab
    simp only [Function.comp, List.getD, la, lb, List.getElem?_eq_getElem, Option.getD_some]
    exact hab

/-- **C51 (infinite `c`)**: an infinite expected number of columns passes the checks of `UoI_CUR`
    (C55); then every column is selected, also one with leverage zero, because `min(1, nan)` is one. -/
theorem C51_infinite_negation [IsStrictOrderedRing K] (argsort : List K → List Nat) {d : Nat}
    (V : Fin d → Nat → K) (k : Nat) (rs : RandomState) (u : Nat → K) (hu : Uniform u) (i : Fin d) :
    i.val ∈ columnSelect argsort V k .pinf false rs u :=
  (mem_flagged_drawn V k .pinf trivial u i).2 (hu i).2

/-- **C51 (`c` not positive)**: `column_select` does not check `c`.  For a finite `c` that is not positive no column
    is selected; for minus infinity exactly the columns with leverage zero are, because `min(1, nan)` is one. -/
theorem C51_nonpositive [IsStrictOrderedRing K] (argsort : List K → List Nat) {d : Nat}
    (V : Fin d → Nat → K) (k : Nat) (rs : RandomState) (u : Nat → K) (hu : Uniform u) (i : Fin d) :
    (∀ c ≤ 0, i.val ∉ columnSelect argsort V k (.fin c) false rs u) ∧
    (i.val ∈ columnSelect argsort V k .ninf false rs u ↔ share V k i = 0) := by
  have h0 : 0 ≤ share V k i := leverage_nonneg V k i
  refine ⟨fun c hc => ?_, ?_⟩
  · rw [(C51_drawn argsort V k c rs u hu i).1, not_lt]
    exact (mul_nonpos_of_nonpos_of_nonneg hc h0).trans (hu i).1
  · show i.val ∈ flagged V k .ninf u ↔ _
    rw [mem_flagged]
    show gtDraw (minOne (if share V k i = 0 then Ext.nan else if 0 < share V k i then .ninf else .pinf)) (u i) = true ↔ _
    by_cases h : share V k i = 0
    · rw [if_pos h]
      simpa [minOne, gtDraw, h] using (hu i).2
    · rw [if_neg h, if_pos (lt_of_le_of_ne h0 (Ne.symm h))]
      simp [minOne, gtDraw, h]

/-- Shares `1/2`, `1/2`, `0`: minus infinity selects the third. -/
example : columnSelect (fun l => List.range l.length)
    (fun (i : Fin 3) j => if i.val = j then (1 : ℚ) else 0) 2 .ninf false .none
    (fun _ => 99 / 100) = [2] := by decide +kernel

/-- Two singular vectors, three columns of shares `1/2`, `1/2`, `0`; `c = 2` selects the first two. -/
example : columnSelect (fun l => List.range l.length)
    (fun (i : Fin 3) j => if i.val = j then (1 : ℚ) else 0) 2 (.fin 2) false .none
    (fun _ => 99 / 100) = [0, 1] ∧ Uniform (fun _ => (99 / 100 : ℚ)) :=
  ⟨by decide +kernel, fun _ => by norm_num⟩

/-- Sorting positions by key with insertion sort is an `argsort`. -/
example : Argsort (fun l : List ℚ =>
    (List.range l.length).insertionSort fun a b => l.getD a 0 ≤ l.getD b 0) := by
  intro l
  refine ⟨List.perm_insertionSort _ _, ?_⟩
  rw [List.pairwise_map]
  have : Std.Total (fun a b : Nat => l.getD a 0 ≤ l.getD b 0) := ⟨fun a b => le_total _ _⟩
  have : IsTrans Nat (fun a b : Nat => l.getD a 0 ≤ l.getD b 0) := ⟨fun a b c => le_trans⟩
  exact List.pairwise_insertionSort _ _

/-! ### C52 -/

/-- **C52 (negation)**: with the same matrix, the same `c` and the same integer `random_state`, the
    columns depend on the entropy of the system: `random_state` is ignored. -/
theorem C52_negation :
    (∃ (V : Fin 2 → Nat → ℚ) (k : Nat) (c : ℚ) (u u' : Nat → ℚ), Uniform u ∧ Uniform u' ∧
      ∀ (argsort : List ℚ → List Nat) (s : Int),
        columnSelect argsort V k (.fin c) false (.int s) u ≠
          columnSelect argsort V k (.fin c) false (.int s) u') ∧
    ∀ (argsort : List K → List Nat) (d : Nat) (V : Fin d → Nat → K) (k : Nat) (c : Ext K) (b : Bool)
      (rs rs' : RandomState) (u : Nat → K),
        columnSelect argsort V k c b rs u = columnSelect argsort V k c b rs' u := by
  refine ⟨⟨fun i j => if i.val = j then 1 else 0, 2, 1, fun _ => 0, fun _ => 3 / 4,
    fun _ => by norm_num, fun _ => by norm_num, fun argsort s => ?_⟩, fun _ _ _ _ _ _ _ _ _ => rfl⟩
  exact (by decide +kernel : flagged (fun (i : Fin 2) j => if i.val = j then (1 : ℚ) else 0) 2 (.fin 1)
    (fun _ => 0) ≠ flagged (fun (i : Fin 2) j => if i.val = j then (1 : ℚ) else 0) 2 (.fin 1)
    (fun _ => 3 / 4))

/-- **C52 (partial)**: the result is reproducible when `c` times the leverage share of every column is
    zero or at least one, whatever the draws.  Missing: reproducibility in all other cases. -/
theorem C52_partial [IsStrictOrderedRing K] (argsort : List K → List Nat) {d : Nat}
    (V : Fin d → Nat → K) (k : Nat) (c : K) (b : Bool) (rs : RandomState)
    (hV : ∀ i, c * share V k i ≤ 0 ∨ 1 ≤ c * share V k i) (u u' : Nat → K) (hu : Uniform u)
    (hu' : Uniform u') :
    columnSelect argsort V k (.fin c) b rs u = columnSelect argsort V k (.fin c) b rs u' := by
  have h : flagged V k (.fin c) u = flagged V k (.fin c) u' := by
    unfold flagged
    congr 1
    refine List.filter_congr fun i _ => ?_
    rw [Bool.eq_iff_iff]
    simp only [mulE, minOne_fin]
    have h1 : leverage V k i = share V k i := rfl
    rw [h1]
    rcases hV i with h | h
    · constructor
      · intro h'; exact absurd (lt_of_lt_of_le h'.2 h) (not_lt.2 (hu i).1)
      · intro h'; exact absurd (lt_of_lt_of_le h'.2 h) (not_lt.2 (hu' i).1)
    · exact ⟨fun _ => ⟨(hu' i).2, lt_of_lt_of_le (hu' i).2 h⟩,
        fun _ => ⟨(hu i).2, lt_of_lt_of_le (hu i).2 h⟩⟩
  simp only [columnSelect, h]

example : ∀ i : Fin 3, 2 * share (fun (i : Fin 3) j => if i.val = j then (1 : ℚ) else 0) 2 i ≤ 0 ∨
    1 ≤ 2 * share (fun (i : Fin 3) j => if i.val = j then (1 : ℚ) else 0) 2 i := by decide +kernel

/-! ### C53 -/

/-- **C53**: the selected columns are strictly increasing and in range, and a column is among them
    exactly when for some of the ranks it was drawn in at least the threshold number of bootstraps. -/
theorem C53_stable [IsStrictOrderedRing K] {S : Type} {n d : Nat} {argsort : List K → List Nat}
    {e : Sklearn S K n d} {F : Thresholds.FloatSem} {nBoots : Nat} {maxK : Int} {fracOne : Bool}
    {ss : Thresholds.Arg} {rs : RandomState} {X : Fin n → Fin d → K} {ks : KsArg K} {cs : CsArg K}
    {w : World S} {draws : Nat → Nat → Nat → K} {f : Fitted K}
    (h : fit argsort e F nBoots maxK fracOne ss rs X ks cs w draws = .ok f) :
    f.columnIndices.Pairwise (· < ·) ∧ (∀ i ∈ f.columnIndices, i < d) ∧
    ∃ (shape : List Nat) (ks' : List Int) (cs' : List (Ext K)) (thr : Nat)
      (V : Nat → Fin d → Nat → K),
      checkKsCs maxK ks cs = .ok (shape, ks', cs') ∧ threshold F ss nBoots = .ok thr ∧
      (bootLoop e rs fracOne X nBoots w).map (List.map Prod.snd) = .ok ((List.range nBoots).map V) ∧
      ∀ i : Fin d, i.val ∈ f.columnIndices ↔ ∃ (ki : Nat) (hk : ki < ks'.length)
        (hc : ki < cs'.length), thr ≤ ((Finset.range nBoots).filter fun b =>
          Drawn (V b) ks'[ki].toNat cs'[ki] (draws b ki) i).card := by
  obtain ⟨shape, ks', cs', thr, bs, h1, h2, h3, h4, -, -⟩ := fit_ok h
  have hlen := bootLoop_length h3
  refine ⟨by rw [h4]; exact finRange_vals_sorted d _, ?_, shape, ks', cs', thr,
    fun b => (bs.map Prod.snd).getD b fun _ _ => 0, h1, h2, ?_, ?_⟩
  · intro i hi
    rw [h4] at hi
    obtain ⟨j, -, rfl⟩ := List.mem_map.1 hi
    exact j.2
  · rw [h3]
    simp only [Except.map]
    congr 1
    refine List.ext_getElem (by simp [hlen]) fun j h1 h2 => ?_
    have : j < bs.length := by simpa using h1
    simp [List.getD, this]
  · intro i
    rw [h4, mem_combine, List.length_map, hlen]
    obtain ⟨hc1, hc2⟩ := checkKsCs_ok h1
    obtain ⟨-, hpos, hl⟩ := checkCs_ok hc2
    simp only at hl hpos
    constructor
    · rintro ⟨ki, hki, hle⟩
      refine ⟨ki, hki, by omega, ?_⟩
      refine hle.trans (le_of_eq ?_)
      congr 1
      refine Finset.filter_congr fun b _ => ?_
      have hkc : ki < cs'.length := by omega
      simp only [List.getD, hki, hkc, List.getElem?_eq_getElem, Option.getD_some]
      exact mem_flagged_drawn _ _ _ (hpos _ (List.getElem_mem _)) _ _
    · rintro ⟨ki, hki, hkc, hle⟩
      refine ⟨ki, hki, hle.trans (le_of_eq ?_)⟩
      congr 1
      refine Finset.filter_congr fun b _ => ?_
      simp only [List.getD, hki, hkc, List.getElem?_eq_getElem, Option.getD_some]
      exact (mem_flagged_drawn _ _ _ (hpos _ (List.getElem_mem _)) _ _).symm

/-- **C53**: for the same data and the same randomness, a higher threshold never adds a column. -/
theorem C53_monotone {S : Type} {n d : Nat} {argsort : List K → List Nat}
    {e : Sklearn S K n d} {F : Thresholds.FloatSem} {nBoots : Nat} {maxK : Int} {fracOne : Bool}
    {ss ss' : Thresholds.Arg} {rs : RandomState} {X : Fin n → Fin d → K} {ks : KsArg K} {cs : CsArg K}
    {w : World S} {draws : Nat → Nat → Nat → K} {f f' : Fitted K} {t t' : Nat}
    (h : fit argsort e F nBoots maxK fracOne ss rs X ks cs w draws = .ok f)
    (h' : fit argsort e F nBoots maxK fracOne ss' rs X ks cs w draws = .ok f')
    (ht : threshold F ss nBoots = .ok t) (ht' : threshold F ss' nBoots = .ok t') (hle : t ≤ t') :
    f'.columnIndices ⊆ f.columnIndices := by
  obtain ⟨s1, k1, c1, t1, b1, h1, h2, h3, h4, -, -⟩ := fit_ok h
  obtain ⟨s2, k2, c2, t2, b2, g1, g2, g3, g4, -, -⟩ := fit_ok h'
  rw [h1] at g1; cases g1
  rw [h3] at g3; cases g3
  rw [ht] at h2; cases h2
  rw [ht'] at g2; cases g2
  intro i hi
  rw [g4] at hi
  rw [h4]
  have hd : i < d := by
    obtain ⟨j, -, rfl⟩ := List.mem_map.1 hi
    exact j.2
  obtain ⟨ki, hki, hk⟩ := (mem_combine _ _ _ _ _ _ _ ⟨i, hd⟩).1 hi
  exact (mem_combine _ _ _ _ _ _ _ ⟨i, hd⟩).2 ⟨ki, hki, hle.trans hk⟩

/-- **C53**: the threshold is the given integer, or the given fraction of the bootstraps rounded down,
    and lies between one and the number of bootstraps. -/
theorem C53_threshold (F : Thresholds.FloatSem) (n : Nat) :
    (∀ z : Int, ∀ t, threshold F (.int z) n = .ok t ↔ 1 ≤ z ∧ z ≤ n ∧ (t : Int) = z) ∧
    (∀ q : ℚ, 0 ≤ q → F.fl (q * n) = .fin (q * n) → ∀ t, threshold F (.float (.fin q)) n = .ok t ↔
      1 ≤ t ∧ t ≤ n ∧ (t : ℚ) ≤ q * n ∧ q * n < t + 1) ∧
    (∀ ss t, threshold F ss n = .ok t → 1 ≤ t ∧ t ≤ n) := by
  have hz : ∀ (z : Int) (t : Nat), (if z ≤ n ∧ 1 ≤ z then (.ok z.toNat : Except PyErr Nat)
      else .error .valueError) = .ok t ↔ 1 ≤ z ∧ z ≤ n ∧ (t : Int) = z := by
    intro z t
    split_ifs with h
    · simp only [Except.ok.injEq]
      constructor
      · intro h'; subst h'; omega
      · intro h'; omega
    · constructor
      · intro h'; cases h'
      · intro h'; exact absurd ⟨h'.2.1, h'.1⟩ h
  refine ⟨fun z t => hz z t, ?_, ?_⟩
  · intro q hq hfl t
    simp only [threshold, Thresholds.mulN, hfl]
    rw [hz]
    have hqn : 0 ≤ q * n := by positivity
    unfold Thresholds.trunc
    rw [if_pos hqn]
    constructor
    · rintro ⟨h1, h2, h3⟩
      refine ⟨by omega, by omega, ?_, ?_⟩
      · have := Int.floor_le (q * n); rw [← h3] at this; exact_mod_cast this
      · have := Int.lt_floor_add_one (q * n); rw [← h3] at this; exact_mod_cast this
    · rintro ⟨h1, h2, h3, h4⟩
      have : ⌊q * (n : ℚ)⌋ = (t : Int) := by
        rw [Int.floor_eq_iff]; exact ⟨by exact_mod_cast h3, by exact_mod_cast h4⟩
      rw [this]
      omega
  · intro ss t h
    have conv : ∀ z : Int, (if z ≤ n ∧ 1 ≤ z then (.ok z.toNat : Except PyErr Nat)
        else .error .valueError) = .ok t → 1 ≤ t ∧ t ≤ n := by
      intro z h
      have := (hz z t).1 h
      omega
    unfold threshold at h
    cases ss with
    | float f =>
      simp only at h
      split at h
      · exact conv _ h
      · cases h
      · cases h
    | int z => exact conv z h
    | list xs => cases h
    | arrFloat xs => cases h
    | arrInt xs => cases h
    | arrOther => cases h
    | other => cases h

/-- A world for the examples: the generator is a counter, the split keeps the first two rows, the
    singular vectors are the unit vectors. -/
def exSk : Sklearn Nat ℚ 3 3 where
  seed s := s.toNat
  split s := (.ok [0, 1], s + 1)
  svd _ s := (.ok fun i j => if i.val = j then 1 else 0, s + 1)

/-- A fit that selects columns 0 and 1 and never column 2 (leverage zero). -/
example : (fit (fun l => List.range l.length) exSk ⟨fun q => .fin q, fun _ => 0⟩ 4 2 false
    (.float (.fin 1)) (.int 0) (fun i j => (i.val + j.val : ℚ)) .none .none ⟨0, 0⟩
    (fun _ _ _ => 1 / 2)).map Fitted.columnIndices = .ok [0, 1] := by decide +kernel

/-! ### C54 -/

/-- **C54 (partial)**: after a fit, `transform` of any matrix with the same number of features is the
    matrix of the selected columns, one column per selected column; on the fitted data it equals
    `components_` provided a column was selected.  Missing: the empty selection (see the negation). -/
theorem C54_partial {S : Type} {n d : Nat} {argsort : List K → List Nat}
    {e : Sklearn S K n d} {F : Thresholds.FloatSem} {nBoots : Nat} {maxK : Int} {fracOne : Bool}
    {ss : Thresholds.Arg} {rs : RandomState} {X : Fin n → Fin d → K} {ks : KsArg K} {cs : CsArg K}
    {w : World S} {draws : Nat → Nat → Nat → K} {f : Fitted K} (hn : 0 < n) (hd : 0 < d)
    (h : fit argsort e F nBoots maxK fracOne ss rs X ks cs w draws = .ok f) :
    (∃ idx : List (Fin d), f.columnIndices = idx.map Fin.val ∧
      ∀ Z : List (Fin d → K), Z ≠ [] → transform f Z = .ok (columnsOf Z idx)) ∧
    (f.columnIndices ≠ [] → transform f (List.ofFn X) = .ok f.components) := by
  obtain ⟨shape, ks', cs', thr, bs, h1, h2, h3, h4, h5, h6⟩ := fit_ok h
  constructor
  · refine ⟨_, h4, fun Z hZ => ?_⟩
    unfold transform
    rw [if_neg (by push Not; exact ⟨hZ, hd.ne'⟩), h4]
    exact takeCols_ok Z _
  · intro hne
    unfold transform
    rw [if_neg]
    · exact h6 hne
    · push Not
      refine ⟨?_, hd.ne'⟩
      intro h0
      have := congrArg List.length h0
      simp at this
      omega

/-- **C54 (negation)**: whenever no column is selected and there is more than one sample,
    `components_` (one empty row) differs from `transform` (one empty row per sample). -/
theorem C54_negation {S : Type} {n d : Nat} {argsort : List K → List Nat}
    {e : Sklearn S K n d} {F : Thresholds.FloatSem} {nBoots : Nat} {maxK : Int} {fracOne : Bool}
    {ss : Thresholds.Arg} {rs : RandomState} {X : Fin n → Fin d → K} {ks : KsArg K} {cs : CsArg K}
    {w : World S} {draws : Nat → Nat → Nat → K} {f : Fitted K} (hn : 1 < n) (hd : 0 < d)
    (h : fit argsort e F nBoots maxK fracOne ss rs X ks cs w draws = .ok f)
    (hempty : f.columnIndices = []) :
    f.components = [[]] ∧ transform f (List.ofFn X) = .ok (List.replicate n []) ∧
      transform f (List.ofFn X) ≠ .ok f.components := by
  obtain ⟨shape, ks', cs', thr, bs, h1, h2, h3, h4, h5, h6⟩ := fit_ok h
  have ht : transform f (List.ofFn X) = .ok (List.replicate n []) := by
    unfold transform
    rw [if_neg, hempty]
    · simp [takeCols]
      exact List.ofFn_const n []
    · push Not
      refine ⟨?_, hd.ne'⟩
      intro h0
      have := congrArg List.length h0
      simp at this
      omega
  refine ⟨h5 hempty, ht, ?_⟩
  rw [ht, h5 hempty]
  intro h
  have := congrArg List.length (Except.ok.inj h)
  simp at this
  omega

/-- With one expected column and large draws nothing is selected. -/
example : (fit (fun l => List.range l.length) exSk ⟨fun q => .fin q, fun _ => 0⟩ 4 2 false
    (.float (.fin 1)) (.int 0) (fun i j => (i.val + j.val : ℚ)) (.int 2) (.int 1) ⟨0, 0⟩
    (fun _ _ _ => 1 / 2)).map Fitted.columnIndices = .ok [] := by decide +kernel

/-- **C54 (CUR)**: for the ordinary CUR decomposition `transform` of the fitted data is `components_`
    in every case. -/
theorem C54_plain {n d : Nat} {argsort : List K → List Nat} {V : Fin d → Nat → K} {maxK : Nat}
    {c : Option (Ext K)} {rs : RandomState} {X : Fin n → Fin d → K} {u : Nat → K} {f : Fitted K}
    (hn : 0 < n) (hd : 0 < d) (h : fitPlain argsort V maxK c rs X u = .ok f) :
    transform f (List.ofFn X) = .ok f.components := by
  unfold fitPlain at h
  dsimp only at h
  split at h
  · cases h
  · rename_i comp hc
    cases h
    unfold transform
    rw [if_neg]
    · exact hc
    · push Not
      refine ⟨?_, hd.ne'⟩
      intro h0
      have := congrArg List.length h0
      simp at this
      omega

/-- **C54 (CUR)**: the ordinary CUR decomposition never fails after the singular value
    decomposition. -/
theorem C54_plain_ok {n d : Nat} {argsort : List K → List Nat} (ha : Argsort argsort)
    (V : Fin d → Nat → K) (maxK : Nat) (c : Option (Ext K)) (rs : RandomState)
    (X : Fin n → Fin d → K) (u : Nat → K) :
    ∃ f, fitPlain argsort V maxK c rs X u = .ok f ∧ (∀ i ∈ f.columnIndices, i < d) ∧
      f.columnIndices.Nodup := by
  have hp := (C51_sorted argsort ha V maxK (c.getD (.fin ((maxK : K) + 20))) rs u).1
  have hv := C51_valid argsort V maxK (c.getD (.fin ((maxK : K) + 20))) rs u
  have hlt : ∀ i ∈ columnSelect argsort V maxK (c.getD (.fin ((maxK : K) + 20))) true rs u, i < d :=
    fun i hi => hv.2 i (hp.subset hi)
  have hnd := hp.nodup_iff.2 (hv.1.imp fun h => Nat.ne_of_lt h)
  unfold fitPlain takeCols
  dsimp only
  rw [if_pos hlt]
  exact ⟨_, rfl, hlt, hnd⟩

/-! ### C55 -/

/-- **C55 (partial)**: for ranks given as nothing, an integer, a list or an array with one axis,
    `check_ks_and_cs` accepts exactly when the ranks lie between one and the maximum and the column
    counts are positive and as many as the ranks, and returns them.  Missing: arrays of ranks with
    more than one axis (see the negation). -/
theorem C55_partial [IsStrictOrderedRing K] (maxK : Int) (ks : KsArg K) (hflat : Flat ks)
    (cs : CsArg K) (k : List Int) (c : List (Ext K)) :
    (∃ s, checkKsCs maxK ks cs = .ok (s, k, c)) ↔
      RanksOf maxK ks k ∧ (∀ x ∈ k, 0 < x ∧ x ≤ maxK) ∧ CountsOf k cs c ∧ (∀ x ∈ c, Positive x) ∧
        c.length = k.length := by
  constructor
  · rintro ⟨s, h⟩
    obtain ⟨h1, h2⟩ := checkKsCs_ok h
    obtain ⟨h3, h4, -⟩ := (checkKs_ok hflat).1 h1
    obtain ⟨h5, h6, h7⟩ := checkCs_ok h2
    exact ⟨h3, h4, h5, h6, h7⟩
  · rintro ⟨h3, h4, h5, h6, h7⟩
    refine ⟨[k.length], ?_⟩
    unfold checkKsCs
    rw [(checkKs_ok hflat).2 ⟨h3, h4, rfl⟩]
    simp only [checkCs_of h5 h6 h7]

/-- **C55**: whatever is rejected is rejected with `ValueError` or `TypeError`, the latter only for
    arrays of strings. -/
theorem C55_errors (maxK : Int) (ks : KsArg K) (cs : CsArg K) (e : PyErr)
    (h : checkKsCs maxK ks cs = .error e) :
    e = .valueError ∨ e = .typeError ∧
      ((∃ n, ks = .list (.strs n)) ∨ (∃ s n, ks = .arr s (.strs n)) ∨ (∃ n, cs = .list (.strs n)) ∨
        ∃ s n, cs = .arr s (.strs n)) := by
  unfold checkKsCs at h
  split at h
  · rename_i e' hk
    cases h
    unfold checkKs at hk
    cases ks with
    | none => simp only at hk; split_ifs at hk; cases hk; exact .inl rfl
    | int z => simp only at hk; split_ifs at hk; cases hk; exact .inl rfl
    | bool b => simp only at hk; cases hk; exact .inl rfl
    | list a =>
      cases a with
      | ints l => simp only at hk; split_ifs at hk <;> cases hk <;> exact .inl rfl
      | floats l => simp only at hk; cases hk; exact .inl rfl
      | bools l => simp only at hk; cases hk; exact .inl rfl
      | strs l => simp only at hk; cases hk; exact .inr ⟨rfl, .inl ⟨_, rfl⟩⟩
    | arr s a =>
      cases a with
      | ints l => simp only at hk; split_ifs at hk <;> cases hk <;> exact .inl rfl
      | floats l => simp only at hk; cases hk; exact .inl rfl
      | bools l => simp only at hk; cases hk; exact .inl rfl
      | strs l => simp only at hk; cases hk; exact .inr ⟨rfl, .inr (.inl ⟨_, _, rfl⟩)⟩
    | other => simp only at hk; cases hk; exact .inl rfl
  · rename_i shape k hk
    split at h
    · rename_i e' hc
      cases h
      unfold checkCs at hc
      cases cs with
      | none => simp only at hc; split_ifs at hc; cases hc; exact .inl rfl
      | int z => simp only at hc; split_ifs at hc; cases hc; exact .inl rfl
      | bool b => simp only at hc; split_ifs at hc <;> cases hc <;> exact .inl rfl
      | float b => simp only at hc; split_ifs at hc; cases hc; exact .inl rfl
      | list a =>
        cases a with
        | ints l => simp only at hc; split_ifs at hc <;> cases hc <;> exact .inl rfl
        | floats l => simp only at hc; split_ifs at hc <;> cases hc; exact .inl rfl
        | bools l => simp only at hc; cases hc; exact .inl rfl
        | strs l => simp only at hc; cases hc; exact .inr ⟨rfl, .inr (.inr (.inl ⟨_, rfl⟩))⟩
      | arr s a =>
        cases a with
        | ints l => simp only at hc; split_ifs at hc <;> cases hc <;> exact .inl rfl
        | floats l => simp only at hc; split_ifs at hc <;> cases hc; exact .inl rfl
        | bools l => simp only at hc; cases hc; exact .inl rfl
        | strs l => simp only at hc; cases hc; exact .inr ⟨rfl, .inr (.inr (.inr ⟨_, _, rfl⟩))⟩
      | other => simp only at hc; cases hc; exact .inl rfl
    · cases h

/-- **C55 (negation)**: an array of ranks with two axes passes the check, and the fit then fails with
    a `TypeError` in the middle. -/
theorem C55_negation :
    (checkKsCs 3 (.arr [2, 2] (.ints [1, 2, 3, 1])) (.none : CsArg ℚ)).toOption.isSome = true ∧
    (fit (fun l => List.range l.length) exSk ⟨fun q => .fin q, fun _ => 0⟩ 4 3 false
      (.float (.fin 1)) (.int 0) (fun i j => (i.val + j.val : ℚ)) (.arr [2, 2] (.ints [1, 2, 3, 1]))
      .none ⟨0, 0⟩ (fun _ _ _ => 1 / 2)).map Fitted.columnIndices = .error .typeError := by
  decide +kernel

/-- Accepted: ranks 1 to 3 with the default counts 21 to 23, ranks given as a list. -/
example : RanksOf 3 (.none : KsArg ℚ) [1, 2, 3] ∧
    CountsOf [1, 2] (.none : CsArg ℚ) [.fin 21, .fin 22] ∧
    CountsOf [1, 2] (.float (.fin (5 / 2)) : CsArg ℚ) [.fin (5 / 2), .fin (5 / 2)] ∧
    Flat (.list (.ints [1, 2]) : KsArg ℚ) := by
  refine ⟨RanksOf.all, ?_, CountsOf.float _, trivial⟩
  have := CountsOf.default (K := ℚ) (ks := [1, 2])
  norm_num at this
  exact this

/-! ### C56 -/

/-- **C56 (negation)**: with an integer `random_state` all bootstraps of `UoI_CUR` use the same
    training rows and the same singular vectors, and the fit does not depend on any generator. -/
theorem C56_negation {S : Type} {n d : Nat} (e : Sklearn S K n d) (s : Int) (fracOne : Bool)
    (X : Fin n → Fin d → K) (m : Nat) (w w' : World S) :
    bootLoop e (.int s) fracOne X m w = bootLoop e (.int s) fracOne X m w' ∧
      ∀ bs, bootLoop e (.int s) fracOne X m w = .ok bs → ∃ b, bs = List.replicate m b := by
  have h1 := bootstrap_int e s fracOne X
  constructor
  · induction m generalizing w w' with
    | zero => rfl
    | succ m ih =>
      obtain ⟨a1, a2⟩ := h1 w w'
      obtain ⟨-, b2⟩ := h1 w' w
      unfold bootLoop
      rcases hb : bootstrap e (.int s) fracOne X w with ⟨r, v⟩
      rcases hb' : bootstrap e (.int s) fracOne X w' with ⟨r', v'⟩
      rw [hb, hb'] at a1
      rw [hb] at a2
      rw [hb'] at b2
      simp only at a1 a2 b2
      subst a1 a2 b2
      cases r with
      | error err => rfl
      | ok b => simp only; rw [ih v v']
  · intro bs h
    cases hb : (bootstrap e (.int s) fracOne X w).1 with
    | error err =>
      cases m with
      | zero => cases h; exact ⟨([], fun _ _ => 0), rfl⟩
      | succ m =>
        unfold bootLoop at h
        rcases hb' : bootstrap e (.int s) fracOne X w with ⟨r, v⟩
        rw [hb'] at h hb
        simp only at hb
        subst hb
        cases h
    | ok b =>
      refine ⟨b, ?_⟩
      induction m generalizing bs with
      | zero => cases h; rfl
      | succ m ih =>
        unfold bootLoop at h
        rcases hb' : bootstrap e (.int s) fracOne X w with ⟨r, v⟩
        have hv := (h1 w w).2
        rw [hb'] at h hb hv
        simp only at hb hv
        subst hb hv
        simp only at h
        split at h
        · cases h
        · rename_i bs' hbs'
          cases h
          rw [ih bs' hbs', List.replicate_succ]

/-- **C56 (partial)**: with a generator object (or with the global generator) the bootstraps are
    successive draws: each split continues from the state the previous bootstrap left.  Missing: the
    same for an integer seed (see the negation). -/
theorem C56_partial {S : Type} {n d : Nat} (e : Sklearn S K n d) (rs : RandomState)
    (hrs : rs = .inst ∨ rs = .none) (X : Fin n → Fin d → K) (m : Nat) (w : World S) (bs)
    (h : bootLoop e rs false X m w = .ok bs) :
    bs.length = m ∧ ∃ st : Nat → S, st 0 = (if rs = .inst then w.inst else w.glob) ∧
      ∀ b (hb : b < bs.length), ∃ rows s', e.split (st b) = (.ok rows, s') ∧
        bs[b].1 = rows.map X ∧ e.svd (rows.map X) s' = (.ok bs[b].2, st (b + 1)) := by
  refine ⟨bootLoop_length h, ?_⟩
  induction m generalizing w bs with
  | zero =>
    cases h
    exact ⟨fun _ => if rs = .inst then w.inst else w.glob, rfl, fun b hb => by cases hb⟩
  | succ m ih =>
    unfold bootLoop at h
    split at h
    · cases h
    · rename_i b v hb
      split at h
      · cases h
      · rename_i bs' hbs'
        cases h
        obtain ⟨st, h0, hst⟩ := ih v bs' hbs'
        have key : ∃ rows s', e.split (if rs = .inst then w.inst else w.glob) = (.ok rows, s') ∧
            b.1 = rows.map X ∧ e.svd (rows.map X) s' = (.ok b.2, st 0) := by
          rw [h0]
          rcases hrs with rfl | rfl
          · simp only [bootstrap, withGen, Bool.false_eq_true, if_false] at hb
            rcases hs : e.split w.inst with ⟨r, s'⟩
            rw [hs] at hb
            cases r with
            | error err => cases hb
            | ok rows =>
              simp only at hb
              rcases hv : e.svd (rows.map X) s' with ⟨r2, s2⟩
              rw [hv] at hb
              cases r2 with
              | error err => cases hb
              | ok V => cases hb; exact ⟨rows, s', hs, rfl, hv⟩
          · simp only [bootstrap, withGen, Bool.false_eq_true, if_false] at hb
            rcases hs : e.split w.glob with ⟨r, s'⟩
            rw [hs] at hb
            cases r with
            | error err => cases hb
            | ok rows =>
              simp only at hb
              rcases hv : e.svd (rows.map X) s' with ⟨r2, s2⟩
              rw [hv] at hb
              cases r2 with
              | error err => cases hb
              | ok V => cases hb; exact ⟨rows, s', hs, rfl, hv⟩
        refine ⟨fun i => if i = 0 then (if rs = .inst then w.inst else w.glob) else st (i - 1), rfl,
          ?_⟩
        intro i hi
        cases i with
        | zero => simpa using key
        | succ i => simpa using hst i (by simpa using hi)

/-- A generator that is a counter. -/
def exSk2 : Sklearn Nat ℚ 3 3 where
  seed s := s.toNat
  split s := (.ok [if s % 2 = 0 then 0 else 1], s + 1)
  svd _ s := (.ok fun _ _ => (s : ℚ), s + 2)

/-- Two bootstraps, successive states. -/
example : (bootLoop exSk2 .inst false (fun i j => (i.val + j.val : ℚ)) 2 ⟨0, 0⟩).map
    (fun bs => bs.map fun b => b.2 0 0) = .ok [1, 4] := by decide +kernel

end Verif.Cur
