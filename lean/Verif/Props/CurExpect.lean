import Mathlib.Probability.Independence.InfinitePi
import Verif.Props.Cur
import Verif.Lemmas.CurExpect
/-!
C133: the expected number of selected columns.
-/
namespace Verif.Cur
open Verif.Py Verif.Spec.Cur MeasureTheory ProbabilityTheory

variable {Ω : Type} [MeasurableSpace Ω] {μ : Measure Ω}

/-- **C133**: the expected number of columns returned by `column_select`, sorted by leverage or not, is
    the sum over the columns of `c` times their leverage scores, each cut off at one. -/
theorem C133_expected [IsFiniteMeasure μ] {argsort : List ℝ → List Nat} (ha : Argsort argsort)
    {d : Nat} (V : Fin d → Nat → ℝ) (k : Nat) (c : ℝ) (hc : 0 < c) (sort : Bool) (rs : RandomState)
    (U : Nat → Ω → ℝ) (hU : ∀ i < d, IsUniform μ (U i)) :
    expectedLength μ (fun ω => columnSelect argsort V k (.fin c) sort rs fun i => U i ω) =
      ∑ i, min 1 (c * share V k i) := by
  have h1 : expectedLength μ (fun ω => columnSelect argsort V k (.fin c) sort rs fun i => U i ω) =
      expectedLength μ (fun ω => flagged V k (.fin c) fun i => U i ω) := by
    unfold expectedLength
    congr 1
    funext ω
    cases sort with
    | false => rfl
    | true =>
      simp only [columnSelect, if_true, List.length_map]
      rw [(ha _).1.length_eq]
      simp
  rw [h1, expectedLength_eq (d := d) _
    (fun i => {ω | Drawn V k (.fin c) (fun j => U j ω) i})
    (fun ω => (flagged_sorted V k _ _).imp fun h => ne_of_lt h)
    (fun ω => flagged_lt V k _ _) (fun i => measurable_drawn V k c U i (hU i i.2).measurable)
    (fun ω i => mem_flagged_drawn V k (.fin c) hc _ i)]
  exact Finset.sum_congr rfl fun i _ => drawn_prob V k c hc.le U i (hU i i.2)

/-- **C133 (partial)**: for singular vectors of length one that expected number is at most `c` and at
    most the number of columns.  It is `c` exactly if no column's leverage score exceeds `1 / c`.
    Missing: equality in the other cases, where it is false (`C133_negation_select`). -/
theorem C133_select_partial [IsFiniteMeasure μ] {argsort : List ℝ → List Nat} (ha : Argsort argsort)
    {d : Nat} (V : Fin d → Nat → ℝ) (k : Nat) (hk : 0 < k) (hV : UnitVectors V k) (c : ℝ) (hc : 0 < c)
    (sort : Bool) (rs : RandomState) (U : Nat → Ω → ℝ) (hU : ∀ i < d, IsUniform μ (U i)) :
    let E := expectedLength μ fun ω => columnSelect argsort V k (.fin c) sort rs fun i => U i ω
    E ≤ c ∧ E ≤ d ∧ (E = c ↔ ∀ i, share V k i ≤ 1 / c) := by
  intro E
  have hE : E = ∑ i, min 1 (c * share V k i) := C133_expected ha V k c hc sort rs U hU
  have hs : ∑ i, c * share V k i = c := by rw [← Finset.mul_sum, sum_share hV hk, mul_one]
  have hle : ∀ i ∈ Finset.univ, min 1 (c * share V k i) ≤ c * share V k i :=
    fun i _ => min_le_right _ _
  refine ⟨?_, ?_, ?_⟩
  · rw [hE]
    exact (Finset.sum_le_sum hle).trans hs.le
  · rw [hE]
    refine (Finset.sum_le_sum (g := fun _ => (1 : ℝ)) fun i _ => min_le_left _ _).trans ?_
    simp
  · have key := Finset.sum_eq_sum_iff_of_le hle
    rw [hs] at key
    rw [hE, key]
    refine forall_congr' fun i => ?_
    simp only [Finset.mem_univ, true_imp_iff, min_eq_right_iff]
    rw [le_div_iff₀ hc, mul_comm]

/-- **C133** for `CUR.fit`: the expected number of columns of a fitted model, whatever `max_k`. -/
theorem C133_plain [IsFiniteMeasure μ] {argsort : List ℝ → List Nat} (ha : Argsort argsort)
    {n d : Nat} (V : Fin d → Nat → ℝ) (maxK : Nat) (hk : 0 < maxK) (hV : UnitVectors V maxK)
    (c : Option ℝ) (hc : ∀ x ∈ c, 0 < x) (rs : RandomState) (X : Fin n → Fin d → ℝ)
    (U : Nat → Ω → ℝ) (hU : ∀ i < d, IsUniform μ (U i)) (f : Ω → Fitted ℝ)
    (hf : ∀ ω, fitPlain argsort V maxK (c.map .fin) rs X (fun i => U i ω) = .ok (f ω)) :
    let c' := c.getD (maxK + 20)
    expectedLength μ (fun ω => (f ω).columnIndices) = ∑ i, min 1 (c' * share V maxK i) ∧
    expectedLength μ (fun ω => (f ω).columnIndices) ≤ min c' d := by
  intro c'
  have hc' : 0 < c' := by
    show 0 < c.getD (maxK + 20)
    cases c with
    | none => simp only [Option.getD_none]; positivity
    | some x => exact hc x rfl
  have e : (fun ω => (f ω).columnIndices) =
      fun ω => columnSelect argsort V maxK (.fin c') true rs fun i => U i ω := by
    funext ω
    have := hf ω
    unfold fitPlain at this
    simp only at this
    split at this
    · cases this
    · rw [← Except.ok.inj this]
      cases c <;> rfl
  rw [e]
  obtain ⟨h1, h2, -⟩ := C133_select_partial ha V maxK hk hV c' hc' true rs U hU
  exact ⟨C133_expected ha V maxK c' hc' true rs U hU, le_min h1 h2⟩

/-- **C133 (partial)** for `UoI_CUR.fit`: the expected number of columns is at most the sum of the
    `cs` over the ranks, times the number of bootstraps over the threshold.  Missing: equality, which
    is false even without cut-off (`C133_negation`). -/
theorem C133_uoi_partial [IsFiniteMeasure μ] {S : Type} {n d : Nat} {argsort : List ℝ → List Nat}
    {e : Sklearn S ℝ n d} {F : Thresholds.FloatSem} {nBoots : Nat} {maxK : Int} {fracOne : Bool}
    {ss : Thresholds.Arg} {rs : RandomState} {X : Fin n → Fin d → ℝ} {ks : KsArg ℝ} {cs : CsArg ℝ}
    {w : World S} (U : Nat → Nat → Nat → Ω → ℝ)
    (hU : ∀ b < nBoots, ∀ ki, ∀ i < d, IsUniform μ (U b ki i)) (f : Ω → Fitted ℝ)
    (hf : ∀ ω, fit argsort e F nBoots maxK fracOne ss rs X ks cs w (fun b ki i => U b ki i ω) =
      .ok (f ω))
    {shape : List Nat} {ks' : List Int} {cs' : List ℝ} {thr : Nat} {V : Nat → Fin d → Nat → ℝ}
    (hkc : checkKsCs maxK ks cs = .ok (shape, ks', cs'.map .fin))
    (ht : threshold F ss nBoots = .ok thr)
    (hb : (bootLoop e rs fracOne X nBoots w).map (List.map Prod.snd) = .ok ((List.range nBoots).map V))
    (hV : ∀ b < nBoots, ∀ k ∈ ks', UnitVectors (V b) k.toNat) (hk : ∀ k ∈ ks', 0 < k) :
    expectedLength μ (fun ω => (f ω).columnIndices) ≤ nBoots / thr * cs'.sum := by
  have hthr : 1 ≤ thr := ((C53_threshold F nBoots).2.2 ss thr ht).1
  have hthr0 : (0 : ℝ) < thr := by exact_mod_cast hthr
  obtain ⟨hc1, hc2⟩ := checkKsCs_ok hkc
  obtain ⟨-, hpos, hl⟩ := checkCs_ok hc2
  simp only [List.length_map] at hl hpos
  have hcpos : ∀ x ∈ cs', (0 : ℝ) < x := fun x hx => hpos _ (List.mem_map_of_mem (f := Ext.fin) hx)
  -- membership
  have hmem : ∀ ω, ∀ i : Fin d, i.val ∈ (f ω).columnIndices ↔ ∃ ki : Fin ks'.length,
      thr ≤ ((Finset.range nBoots).filter fun b =>
        Drawn (V b) (ks'.get ki).toNat (.fin (cs'.getD ki 0)) (fun j => U b ki j ω) i).card := by
    intro ω i
    obtain ⟨-, -, sh2, k2, c2, t2, V2, g1, g2, g3, g4⟩ := C53_stable (hf ω)
    rw [hkc] at g1; cases g1
    rw [ht] at g2; cases g2
    rw [hb] at g3
    have hVV : ∀ b < nBoots, V b = V2 b := by
      have := Except.ok.inj g3
      intro b hb
      exact (List.map_inj_left.1 this) b (List.mem_range.2 hb)
    rw [g4]
    constructor
    · rintro ⟨ki, hki, hkc, hle⟩
      refine ⟨⟨ki, hki⟩, hle.trans (le_of_eq ?_)⟩
      congr 1
      refine Finset.filter_congr fun b hb => ?_
      rw [hVV b (Finset.mem_range.1 hb)]
      have : ki < cs'.length := by omega
      simp [List.getD, this]
    · rintro ⟨ki, hle⟩
      refine ⟨ki, ki.2, by simp; omega, hle.trans (le_of_eq ?_)⟩
      congr 1
      refine Finset.filter_congr fun b hb => ?_
      rw [hVV b (Finset.mem_range.1 hb)]
      have : ki.val < cs'.length := by omega
      simp [List.getD, this]
  let A : Fin d → Fin ks'.length → Nat → Set Ω := fun i ki b =>
    {ω | Drawn (V b) (ks'.get ki).toNat (.fin (cs'.getD ki 0)) (fun j => U b ki j ω) i}
  have hA : ∀ i ki, ∀ b ∈ Finset.range nBoots, MeasurableSet (A i ki b) := fun i ki b hb =>
    measurable_drawn _ _ _ _ _ (hU b (Finset.mem_range.1 hb) ki i i.2).measurable
  let G : Ω → ℝ := fun ω => ∑ i, ∑ ki, ∑ b ∈ Finset.range nBoots,
    (A i ki b).indicator (fun _ => (1 : ℝ)) ω
  have hint : Integrable G μ := integrable_finsetSum _ fun i _ => integrable_finsetSum _ fun ki _ =>
    integrable_finsetSum _ fun b hb => (integrable_const (1 : ℝ)).indicator (hA i ki b hb)
  have hpt : ∀ ω, ((f ω).columnIndices.length : ℝ) ≤ G ω / thr := by
    intro ω
    obtain ⟨s1, s2, -⟩ := C53_stable (hf ω)
    rw [length_eq_card (d := d) _ (s1.imp fun h => ne_of_lt h) s2, Finset.card_filter, le_div_iff₀ hthr0]
    push_cast
    rw [Finset.sum_mul]
    refine Finset.sum_le_sum fun i _ => ?_
    have hnn : ∀ ki, 0 ≤ ∑ b ∈ Finset.range nBoots, (A i ki b).indicator (fun _ => (1 : ℝ)) ω :=
      fun ki => Finset.sum_nonneg fun b _ => Set.indicator_nonneg (fun _ _ => zero_le_one) _
    split_ifs with h
    · obtain ⟨ki, hki⟩ := (hmem ω i).1 h
      rw [one_mul]
      refine le_trans ?_ (Finset.single_le_sum (fun ki _ => hnn ki) (Finset.mem_univ ki))
      have : (thr : ℝ) ≤ (((Finset.range nBoots).filter fun b =>
        Drawn (V b) (ks'.get ki).toNat (.fin (cs'.getD ki 0)) (fun j => U b ki j ω) i).card : ℝ) := by
        exact_mod_cast hki
      refine this.trans (le_of_eq ?_)
      rw [Finset.card_filter]
      push_cast
      refine Finset.sum_congr rfl fun b _ => ?_
      by_cases hd : Drawn (V b) (ks'.get ki).toNat (.fin (cs'.getD ki 0)) (fun j => U b ki j ω) i
      · rw [if_pos hd, Set.indicator_of_mem (show ω ∈ A i ki b from hd)]
      · rw [if_neg hd, Set.indicator_of_notMem (show ω ∉ A i ki b from hd)]
    · rw [zero_mul]
      exact Finset.sum_nonneg fun ki _ => hnn ki
  refine (integral_mono_of_nonneg (Filter.Eventually.of_forall fun ω => Nat.cast_nonneg _)
    (hint.div_const _) (Filter.Eventually.of_forall hpt)).trans ?_
  rw [integral_div, div_mul_eq_mul_div]
  refine div_le_div_of_nonneg_right ?_ hthr0.le
  have hG : ∫ ω, G ω ∂μ = ∑ i, ∑ ki, ∑ b ∈ Finset.range nBoots, μ.real (A i ki b) := by
    rw [integral_finsetSum _ fun i _ => integrable_finsetSum _ fun ki _ =>
      integrable_finsetSum _ fun b hb => (integrable_const (1 : ℝ)).indicator (hA i ki b hb)]
    refine Finset.sum_congr rfl fun i _ => ?_
    rw [integral_finsetSum _ fun ki _ =>
      integrable_finsetSum _ fun b hb => (integrable_const (1 : ℝ)).indicator (hA i ki b hb)]
    refine Finset.sum_congr rfl fun ki _ => ?_
    rw [integral_finsetSum _ fun b hb => (integrable_const (1 : ℝ)).indicator (hA i ki b hb)]
    refine Finset.sum_congr rfl fun b hb => ?_
    rw [integral_indicator (hA i ki b hb)]
    simp
  rw [hG, Finset.sum_comm]
  have hsum : cs'.sum = ∑ ki : Fin ks'.length, cs'.getD ki 0 := by
    rw [← List.sum_ofFn]
    congr 1
    refine List.ext_getElem (by simp [hl]) fun j h1 h2 => ?_
    simp [List.getD, h1]
  rw [hsum, Finset.mul_sum]
  refine Finset.sum_le_sum fun ki _ => ?_
  rw [Finset.sum_comm]
  have hkm : ks'.get ki ∈ ks' := List.get_mem _ _
  have hcp : 0 < cs'.getD ki 0 := by
    have : ki.val < cs'.length := by omega
    simp only [List.getD, this, List.getElem?_eq_getElem, Option.getD_some]
    exact hcpos _ (List.getElem_mem _)
  have hk0 : 0 < (ks'.get ki).toNat := by have := hk _ hkm; omega
  calc ∑ b ∈ Finset.range nBoots, ∑ i, μ.real (A i ki b)
      ≤ ∑ b ∈ Finset.range nBoots, cs'.getD ki 0 := by
        refine Finset.sum_le_sum fun b hb => ?_
        have hb' := Finset.mem_range.1 hb
        rw [Finset.sum_congr rfl fun i _ => drawn_prob (V b) _ _ hcp.le (U b ki) i (hU b hb' ki i i.2)]
        refine (Finset.sum_le_sum fun i _ => min_le_right _ _).trans ?_
        rw [← Finset.mul_sum, sum_share (hV b hb' _ hkm) hk0, mul_one]
    _ = nBoots * cs'.getD ki 0 := by simp

/-- **C133**: with one rank, the default `stability_selection=1` (every bootstrap must agree) and
    independent draws, the expected number of columns is the sum of the products, over the bootstraps,
    of the cut-off leverage scores times `c`. -/
theorem C133_all_bootstraps [IsFiniteMeasure μ] {S : Type} {n d : Nat} {argsort : List ℝ → List Nat}
    {e : Sklearn S ℝ n d} {F : Thresholds.FloatSem} {nBoots : Nat} {maxK : Int} {fracOne : Bool}
    {ss : Thresholds.Arg} {rs : RandomState} {X : Fin n → Fin d → ℝ} {ks : KsArg ℝ} {cs : CsArg ℝ}
    {w : World S} (U : Nat → Nat → Nat → Ω → ℝ)
    (hU : ∀ b, ∀ i < d, IsUniform μ (U b 0 i))
    (hI : ∀ i < d, iIndepFun (fun b => U b 0 i) μ) (f : Ω → Fitted ℝ)
    (hf : ∀ ω, fit argsort e F nBoots maxK fracOne ss rs X ks cs w (fun b ki i => U b ki i ω) =
      .ok (f ω))
    {shape : List Nat} {k : Int} {c : ℝ} {V : Nat → Fin d → Nat → ℝ}
    (hkc : checkKsCs maxK ks cs = .ok (shape, [k], [.fin c]))
    (ht : threshold F ss nBoots = .ok nBoots)
    (hb : (bootLoop e rs fracOne X nBoots w).map (List.map Prod.snd) =
      .ok ((List.range nBoots).map V)) :
    expectedLength μ (fun ω => (f ω).columnIndices) =
      ∑ i, ∏ b ∈ Finset.range nBoots, min 1 (c * share (V b) k.toNat i) := by
  have hc : 0 < c := (checkCs_ok (checkKsCs_ok hkc).2).2.1 _ (List.mem_singleton.2 rfl)
  let A : Fin d → Nat → Set Ω := fun i b => {ω | Drawn (V b) k.toNat (.fin c) (fun j => U b 0 j ω) i}
  have hA : ∀ i b, MeasurableSet (A i b) := fun i b =>
    measurable_drawn _ _ _ _ _ (hU b i i.2).measurable
  have hmem : ∀ ω, ∀ i : Fin d, i.val ∈ (f ω).columnIndices ↔
      ω ∈ ⋂ b ∈ Finset.range nBoots, A i b := by
    intro ω i
    obtain ⟨-, -, sh2, k2, c2, t2, V2, g1, g2, g3, g4⟩ := C53_stable (hf ω)
    rw [hkc] at g1; cases g1
    rw [ht] at g2; cases g2
    rw [hb] at g3
    have hVV : ∀ b < nBoots, V b = V2 b := by
      have := Except.ok.inj g3
      intro b hb
      exact (List.map_inj_left.1 this) b (List.mem_range.2 hb)
    rw [g4]
    have hall : ∀ q : Nat → Prop, [DecidablePred q] →
        (nBoots ≤ ((Finset.range nBoots).filter q).card ↔ ∀ b < nBoots, q b) := by
      intro q _
      constructor
      · intro h b hb
        have : (Finset.range nBoots).filter q = Finset.range nBoots :=
          Finset.eq_of_subset_of_card_le (Finset.filter_subset _ _) (by simpa using h)
        exact (Finset.mem_filter.1 (this ▸ Finset.mem_range.2 hb)).2
      · intro h
        rw [Finset.filter_true_of_mem fun b hb => h b (Finset.mem_range.1 hb), Finset.card_range]
    constructor
    · rintro ⟨ki, hki, hkc, hle⟩
      have hk0 : ki = 0 := by simpa using hki
      subst hk0
      simp only [Set.mem_iInter, Finset.mem_range]
      intro b hb
      have := (hall _).1 hle b hb
      rw [← hVV b hb] at this
      exact this
    · intro h
      simp only [Set.mem_iInter, Finset.mem_range] at h
      refine ⟨0, by simp, by simp, (hall _).2 fun b hb => ?_⟩
      rw [← hVV b hb]
      exact h b hb
  rw [expectedLength_eq (d := d) _ (fun i => ⋂ b ∈ Finset.range nBoots, A i b)
    (fun ω => (C53_stable (hf ω)).1.imp fun h => ne_of_lt h) (fun ω => (C53_stable (hf ω)).2.1)
    (fun i => Finset.measurableSet_biInter _ fun b _ => hA i b) hmem]
  refine Finset.sum_congr rfl fun i _ => ?_
  have hind := (hI i i.2).meas_biInter (S := Finset.range nBoots) (s := fun b => A i b) fun b _ =>
    ⟨{u | u < 1 ∧ u < c * share (V b) k.toNat i},
      (measurableSet_lt measurable_id measurable_const).inter
        (measurableSet_lt measurable_id measurable_const), rfl⟩
  rw [Measure.real, hind, ENNReal.toReal_prod]
  exact Finset.prod_congr rfl fun b _ => drawn_prob (V b) _ _ hc.le (U b 0) i (hU b i i.2)

/-! ### A probability space with independent uniform draws -/

/-- The uniform distribution on `[0, 1)`. -/
noncomputable def exUnif : Measure ℝ := volume.restrict (Set.Ico 0 1)

instance : IsProbabilityMeasure exUnif := ⟨by simp [exUnif]⟩

/-- Independent uniform numbers for every bootstrap, rank and column. -/
noncomputable def exMu : Measure (Nat × Nat × Nat → ℝ) := Measure.infinitePi fun _ => exUnif

noncomputable instance : IsProbabilityMeasure exMu := by unfold exMu; infer_instance

/-- The draw for bootstrap `b`, rank number `ki` and column `i`. -/
def exDraw (b ki i : Nat) (ω : Nat × Nat × Nat → ℝ) : ℝ := ω (b, ki, i)

theorem exDraw_uniform (b ki i : Nat) : IsUniform exMu (exDraw b ki i) where
  measurable := measurable_pi_apply _
  law := Measure.infinitePi_map_eval (fun _ => exUnif) (b, ki, i)

theorem exDraw_indep (ki i : Nat) : iIndepFun (fun b => exDraw b ki i) exMu := by
  have h : iIndepFun (fun (t : Nat × Nat × Nat) ω => (fun x : ℝ => x) (ω t)) exMu :=
    iIndepFun_infinitePi (P := fun _ => exUnif) (X := fun _ x => x) fun _ => measurable_id
  exact h.precomp (g := fun b : Nat => (b, ki, i)) fun a b hab => by simpa using hab

/-- Four identical columns: the first singular vector has equal entries. -/
noncomputable def exV4 : Fin 4 → Nat → ℝ := fun _ l => if l = 0 then 1 / 2 else 0

theorem exV4_unit : UnitVectors exV4 1 := by
  intro l hl
  obtain rfl : l = 0 := by omega
  simp only [exV4, if_true, Finset.sum_const, Finset.card_univ, Fintype.card_fin]
  norm_num

theorem exV4_share (i : Fin 4) : share exV4 1 i = 1 / 4 := by
  simp only [share, exV4, Finset.range_one, Finset.sum_singleton, if_true]
  norm_num

/-- An `np.argsort` over the reals. -/
noncomputable def exArgsort (l : List ℝ) : List Nat :=
  (List.range l.length).mergeSort fun i j => decide (l.getD i 0 ≤ l.getD j 0)

theorem exArgsort_ok : Argsort exArgsort := by
  intro l
  refine ⟨List.mergeSort_perm _ _, ?_⟩
  rw [List.pairwise_map]
  have := List.pairwise_mergeSort (le := fun i j => decide (l.getD i 0 ≤ l.getD j 0))
    (fun a b c => by simp only [decide_eq_true_eq]; exact le_trans)
    (fun a b => by simp only [Bool.or_eq_true, decide_eq_true_eq]; exact le_total _ _)
    (List.range l.length)
  exact this.imp fun h => by simpa using h

/-- Two of four equal columns are expected when two are asked for; of seven, only four. -/
example : expectedLength exMu (fun ω => columnSelect exArgsort exV4 1 (.fin 2) true .none
      fun i => exDraw 0 0 i ω) = 2 ∧
    expectedLength exMu (fun ω => columnSelect exArgsort exV4 1 (.fin 7) false .none
      fun i => exDraw 0 0 i ω) = 4 := by
  rw [C133_expected exArgsort_ok exV4 1 2 (by norm_num) _ _ _ fun i _ => exDraw_uniform 0 0 i,
    C133_expected exArgsort_ok exV4 1 7 (by norm_num) _ _ _ fun i _ => exDraw_uniform 0 0 i]
  simp only [exV4_share, Finset.sum_const, Finset.card_univ, Fintype.card_fin]
  norm_num

example : expectedLength exMu (fun ω => columnSelect exArgsort exV4 1 (.fin 2) true .none
      fun i => exDraw 0 0 i ω) = 2 :=
  (C133_select_partial exArgsort_ok exV4 1 (by decide) exV4_unit 2 (by norm_num) true .none _
    fun i _ => exDraw_uniform 0 0 i).2.2.2 fun i => by rw [exV4_share]; norm_num

/-- **C133** is false of `column_select`: of `c` expected columns fewer are selected on average as soon
    as there are fewer columns than `c`, whatever the leverage; the default `c = max_k + 20` of `CUR`
    has this effect on all data with at most 20 features. -/
theorem C133_negation_select [IsFiniteMeasure μ] {argsort : List ℝ → List Nat} (ha : Argsort argsort)
    {n d : Nat} (hd : d ≤ 20) (V : Fin d → Nat → ℝ) (maxK : Nat) (hk : 0 < maxK)
    (hV : UnitVectors V maxK) (rs : RandomState) (X : Fin n → Fin d → ℝ)
    (U : Nat → Ω → ℝ) (hU : ∀ i < d, IsUniform μ (U i)) (f : Ω → Fitted ℝ)
    (hf : ∀ ω, fitPlain argsort V maxK none rs X (fun i => U i ω) = .ok (f ω)) :
    expectedLength μ (fun ω => (f ω).columnIndices) < maxK + 20 := by
  have h := (C133_plain ha V maxK hk hV none (by simp) rs X U hU f hf).2
  simp only [Option.getD_none] at h
  have h2 : expectedLength μ (fun ω => (f ω).columnIndices) ≤ d := h.trans (min_le_right _ _)
  have h3 : (d : ℝ) ≤ 20 := by exact_mod_cast hd
  have h4 : (0 : ℝ) < maxK := by exact_mod_cast hk
  linarith

/-- The parts of scikit-learn for the example: all bootstraps have the same singular vectors. -/
noncomputable def exSk4 : Sklearn Nat ℝ 1 4 where
  seed s := s.toNat
  split s := (.ok [0], s)
  svd _ s := (.ok exV4, s)

theorem ex_plain_ok (u : Nat → ℝ) : ∃ f, fitPlain exArgsort exV4 1 none .none
    (fun (_ : Fin 1) (_ : Fin 4) => (1 : ℝ)) u = .ok f := by
  unfold fitPlain
  simp only [takeCols]
  rw [if_pos]
  · exact ⟨_, rfl⟩
  · intro i hi
    simp only [columnSelect, if_true, List.mem_map] at hi
    obtain ⟨j, hj, rfl⟩ := hi
    have hjl := ((exArgsort_ok _).1.mem_iff).1 hj
    simp only [List.length_map, List.mem_range] at hjl
    simp only [List.getD, hjl, List.getElem?_eq_getElem, Option.getD_some]
    exact flagged_lt _ _ _ _ _ (List.getElem_mem _)

example : expectedLength exMu (fun ω => (Classical.choose
    (ex_plain_ok fun i => exDraw 0 0 i ω)).columnIndices) < (1 : Nat) + 20 :=
  C133_negation_select (n := 1) exArgsort_ok (by decide) exV4 1 (by decide) exV4_unit .none _ _
    (fun i _ => exDraw_uniform 0 0 i) _ fun _ => Classical.choose_spec (ex_plain_ok _)

theorem ex_boot (w : World Nat) : ∀ m, bootLoop exSk4 .none true (fun _ _ => (1 : ℝ)) m w =
    .ok (List.replicate m ([fun _ => (1 : ℝ)], exV4)) := by
  intro m
  induction m with
  | zero => rfl
  | succ m ih =>
    simp only [bootLoop, bootstrap, if_true, withGen, exSk4, List.replicate_succ] at ih ⊢
    rw [ih]
    rfl

theorem ex_counts : checkKsCs (K := ℝ) 1 .none (.int 2) = .ok ([1], [1], [.fin 2]) := by
  have h1 : checkKs (K := ℝ) 1 .none = .ok ([1], [1]) := by decide
  have h2 : checkCs (K := ℝ) [1] (.int 2) = .ok [.fin 2] := by
    refine checkCs_of ?_ (fun x hx => ?_) rfl
    · have h := CountsOf.int (K := ℝ) (ks := [1]) 2
      simpa using h
    · rw [List.mem_singleton.1 hx]
      exact two_pos
  simp only [checkKsCs, h1, h2]

theorem ex_thr : threshold ⟨fun q => .fin q, fun _ => 0⟩ (.float (.fin 1)) 2 = .ok 2 := by
  decide +kernel

theorem ex_fit_ok (u : Nat → Nat → Nat → ℝ) : ∃ f, fit exArgsort exSk4
    ⟨fun q => .fin q, fun _ => 0⟩ 2 1 true (.float (.fin 1)) .none (fun _ _ => (1 : ℝ)) .none
    (.int 2) ⟨0, 0⟩ u = .ok f := by
  unfold fit
  simp only [ex_boot, ex_counts, ex_thr, List.length_singleton, ne_eq, not_true_eq_false, if_false]
  split
  · exact ⟨_, rfl⟩
  · unfold takeCols
    rw [if_pos]
    · exact ⟨_, rfl⟩
    · intro i hi
      obtain ⟨j, -, rfl⟩ := List.mem_map.1 hi
      exact j.2

/-- **C133** is false of `UoI_CUR.fit` even where `column_select` keeps it: for four equal columns,
    two expected columns and two bootstraps one column is selected on average (default
    `stability_selection=1.`, `boots_frac=1`), although each bootstrap selects two on average. -/
theorem C133_negation : ∃ f : (Nat × Nat × Nat → ℝ) → Fitted ℝ,
    (∀ ω, fit exArgsort exSk4 ⟨fun q => .fin q, fun _ => 0⟩ 2 1 true (.float (.fin 1)) .none
      (fun _ _ => (1 : ℝ)) .none (.int 2) ⟨0, 0⟩ (fun b ki i => exDraw b ki i ω) = .ok (f ω)) ∧
    expectedLength exMu (fun ω => (f ω).columnIndices) = 1 ∧
    ∀ b, expectedLength exMu (fun ω => columnSelect exArgsort exV4 1 (.fin 2) false .none
      fun i => exDraw b 0 i ω) = 2 := by
  refine ⟨fun ω => Classical.choose (ex_fit_ok fun b ki i => exDraw b ki i ω),
    fun ω => Classical.choose_spec (ex_fit_ok fun b ki i => exDraw b ki i ω), ?_, fun b => ?_⟩
  · rw [C133_all_bootstraps (V := fun _ => exV4) exDraw (fun b i _ => exDraw_uniform b 0 i)
      (fun i _ => exDraw_indep 0 i) _ (fun ω => Classical.choose_spec (ex_fit_ok fun b ki i =>
        exDraw b ki i ω)) ex_counts ex_thr (by rw [ex_boot]; rfl)]
    simp only [show (1 : Int).toNat = 1 from rfl, exV4_share, Finset.prod_const, Finset.card_range,
      Finset.sum_const, Finset.card_univ, Fintype.card_fin]
    norm_num
  · rw [C133_expected exArgsort_ok exV4 1 2 (by norm_num) _ _ _ fun i _ => exDraw_uniform b 0 i]
    simp only [exV4_share, Finset.sum_const, Finset.card_univ, Fintype.card_fin]
    norm_num

/-- The bound of `C133_uoi_partial` in the same situation. -/
example : expectedLength exMu (fun ω => (Classical.choose
    (ex_fit_ok fun b ki i => exDraw b ki i ω)).columnIndices) ≤ (2 : Nat) / (2 : Nat) * [2].sum :=
  C133_uoi_partial (V := fun _ => exV4) (cs' := [2]) exDraw (fun b _ ki i _ => exDraw_uniform b ki i) _
    (fun ω => Classical.choose_spec (ex_fit_ok fun b ki i => exDraw b ki i ω)) ex_counts ex_thr
    (by rw [ex_boot]; rfl) (fun b _ k hk => by rw [List.mem_singleton.1 hk]; exact exV4_unit)
    (fun k hk => by rw [List.mem_singleton.1 hk]; decide)

end Verif.Cur
