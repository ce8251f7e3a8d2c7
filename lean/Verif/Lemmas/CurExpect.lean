import Mathlib.MeasureTheory.Integral.Bochner.Set
import Mathlib.Probability.Independence.Basic
import Verif.Lemmas.Cur
import Verif.Spec.CurExpect
/-! Helper lemmas for C133. -/
namespace Verif.Cur
open Verif.Py Verif.Spec.Cur MeasureTheory

variable {Ω : Type} [MeasurableSpace Ω] {μ : Measure Ω}

theorem share_nonneg {d : Nat} (V : Fin d → Nat → ℝ) (k : Nat) (i : Fin d) : 0 ≤ share V k i :=
  leverage_nonneg V k i

theorem sum_share {d : Nat} {V : Fin d → Nat → ℝ} {k : Nat} (hV : UnitVectors V k) (hk : 0 < k) :
    ∑ i, share V k i = 1 := by
  unfold share
  rw [← Finset.sum_div, Finset.sum_comm, Finset.sum_congr rfl fun l hl => hV l (Finset.mem_range.1 hl)]
  have : (k : ℝ) ≠ 0 := by exact_mod_cast hk.ne'
  simp [this]

/-- The probability that a uniform number lies below `t`. -/
theorem uniform_lt {U : Ω → ℝ} (h : IsUniform μ U) (t : ℝ) (ht : 0 ≤ t) :
    μ.real {ω | U ω < 1 ∧ U ω < t} = min 1 t := by
  have e : {ω | U ω < 1 ∧ U ω < t} = U ⁻¹' Set.Iio (min 1 t) := by
    ext ω; simp
  rw [e, Measure.real, ← Measure.map_apply h.measurable measurableSet_Iio, h.law,
    Measure.restrict_apply measurableSet_Iio]
  have e2 : Set.Iio (min 1 t) ∩ Set.Ico 0 1 = Set.Ico 0 (min 1 t) := by
    ext x; simp only [Set.mem_inter_iff, Set.mem_Iio, Set.mem_Ico, lt_min_iff]; tauto
  rw [e2, Real.volume_Ico, sub_zero, ENNReal.toReal_ofReal (le_min zero_le_one ht)]

theorem measurable_drawn {d : Nat} (V : Fin d → Nat → ℝ) (k : Nat) (c : ℝ) (U : Nat → Ω → ℝ)
    (i : Fin d) (h : Measurable (U i)) :
    MeasurableSet {ω | Drawn V k (.fin c) (fun j => U j ω) i} :=
  (measurableSet_lt h measurable_const).inter (measurableSet_lt h measurable_const)

theorem drawn_prob {d : Nat} (V : Fin d → Nat → ℝ) (k : Nat) (c : ℝ) (hc : 0 ≤ c)
    (U : Nat → Ω → ℝ) (i : Fin d) (h : IsUniform μ (U i)) :
    μ.real {ω | Drawn V k (.fin c) (fun j => U j ω) i} = min 1 (c * share V k i) :=
  uniform_lt h _ (mul_nonneg hc (share_nonneg V k i))

theorem length_eq_card {d : Nat} (L : List Nat) (hn : L.Nodup) (hd : ∀ i ∈ L, i < d) :
    L.length = (Finset.univ.filter fun i : Fin d => i.val ∈ L).card := by
  rw [← List.toFinset_card_of_nodup hn]
  symm
  refine Finset.card_bij (fun i _ => i.val) ?_ ?_ ?_
  · intro i hi; simpa using hi
  · intro i _ j _ h; exact Fin.ext h
  · intro b hb
    have hb' : b ∈ L := by simpa using hb
    exact ⟨⟨b, hd b hb'⟩, by simpa using hb', rfl⟩

/-- The expected length of a random list of distinct indices is the sum of the probabilities of the
    indices. -/
theorem expectedLength_eq [IsFiniteMeasure μ] {d : Nat} (L : Ω → List Nat) (A : Fin d → Set Ω)
    (hn : ∀ ω, (L ω).Nodup) (hd : ∀ ω, ∀ i ∈ L ω, i < d) (hA : ∀ i, MeasurableSet (A i))
    (hLA : ∀ ω i, i.val ∈ L ω ↔ ω ∈ A i) :
    expectedLength μ L = ∑ i, μ.real (A i) := by
  have e : ∀ ω, ((L ω).length : ℝ) = ∑ i, (A i).indicator (fun _ => (1 : ℝ)) ω := by
    intro ω
    rw [length_eq_card (d := d) (L ω) (hn ω) (hd ω), Finset.card_filter]
    push_cast
    refine Finset.sum_congr rfl fun i _ => ?_
    by_cases h : ω ∈ A i
    · simp [h, hLA]
    · simp [h, hLA]
  unfold expectedLength
  simp only [e]
  rw [integral_finsetSum _ fun i _ => (integrable_const (1 : ℝ)).indicator (hA i)]
  refine Finset.sum_congr rfl fun i _ => ?_
  rw [integral_indicator (hA i)]
  simp

end Verif.Cur
