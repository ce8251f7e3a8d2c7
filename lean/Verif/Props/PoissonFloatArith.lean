import Mathlib.Analysis.SpecialFunctions.Exp
import Verif.Model.PoissonFloat
import Verif.Spec.PoissonFloatArith
/-! C141: the arithmetic of the floating-point model. -/
namespace Verif.PoissonFloat
open Verif.Py Verif.Poisson Verif.Spec.PoissonFloatArith Filter Topology

/-- C141.  Sums are limits; NaN comes from NaN or from opposite infinities only. -/
theorem C141_add (a b : Ext ℝ) : Limit2 (add a b) (· + ·) a b ∧
    (add a b = .nan ↔ a = .nan ∨ b = .nan ∨ (a = .pinf ∧ b = .ninf) ∨ (a = .ninf ∧ b = .pinf)) := by
  constructor
  · have hf {l m : Filter ℝ} : Tendsto (fun q : ℝ × ℝ => q.1) (l ×ˢ m) l := tendsto_fst
    have hs {l m : Filter ℝ} : Tendsto (fun q : ℝ × ℝ => q.2) (l ×ˢ m) m := tendsto_snd
    match a, b with
    | .fin a, .fin b => exact hf.add hs
    | .nan, _ => exact tendsto_top
    | .fin a, .nan => exact tendsto_top
    | .pinf, .nan => exact tendsto_top
    | .ninf, .nan => exact tendsto_top
    | .pinf, .ninf => exact tendsto_top
    | .ninf, .pinf => exact tendsto_top
    | .fin a, .pinf => exact hf.add_atTop hs
    | .fin a, .ninf => exact hf.add_atBot hs
    | .pinf, .fin b => exact hf.atTop_add hs
    | .ninf, .fin b => exact hf.atBot_add hs
    | .pinf, .pinf => exact hf.atTop_add_atTop hs
    | .ninf, .ninf => exact hf.atBot_add_atBot hs
  · cases a <;> cases b <;> simp [add]

/-- Infinity and one. -/
example : add .pinf (.fin 1) = .pinf ∧ add .pinf .ninf = .nan := ⟨rfl, rfl⟩

theorem infOf_nan (a : ℝ) (s : Bool) : infOf a s = .nan ↔ a = 0 := by
  unfold infOf
  split_ifs <;> simp_all

theorem infOf_cases (a : ℝ) (s : Bool) : (a = 0 ∧ infOf a s = .nan) ∨
    (0 < a ∧ infOf a s = if s then .pinf else .ninf) ∨ (a < 0 ∧ infOf a s = if s then .ninf else .pinf) := by
  rcases lt_trichotomy a 0 with h | h | h
  · exact .inr (.inr ⟨h, by rw [infOf, if_neg h.ne, if_neg h.le.not_gt]⟩)
  · exact .inl ⟨h, (infOf_nan a s).2 h⟩
  · exact .inr (.inl ⟨h, by rw [infOf, if_neg h.ne', if_pos h]⟩)

/-- C141.  Products are limits; NaN comes from NaN or from zero times infinity only. -/
theorem C141_mul (a b : Ext ℝ) : Limit2 (mul a b) (· * ·) a b ∧
    (mul a b = .nan ↔ a = .nan ∨ b = .nan ∨ (a = .fin 0 ∧ Inf b) ∨ (Inf a ∧ b = .fin 0)) := by
  constructor
  · have hf {l m : Filter ℝ} : Tendsto (fun q : ℝ × ℝ => q.1) (l ×ˢ m) l := tendsto_fst
    have hs {l m : Filter ℝ} : Tendsto (fun q : ℝ × ℝ => q.2) (l ×ˢ m) m := tendsto_snd
    match a, b with
    | .fin a, .fin b => exact hf.mul hs
    | .nan, _ => exact tendsto_top
    | .fin a, .nan => exact tendsto_top
    | .pinf, .nan => exact tendsto_top
    | .ninf, .nan => exact tendsto_top
    | .pinf, .pinf => exact hf.atTop_mul_atTop₀ hs
    | .pinf, .ninf => exact hf.atTop_mul_atBot₀ hs
    | .ninf, .pinf => exact hf.atBot_mul_atTop₀ hs
    | .ninf, .ninf => exact hf.atBot_mul_atBot₀ hs
    | .fin a, .pinf =>
      unfold Limit2
      simp only [mul]
      rcases infOf_cases a true with ⟨h, e⟩ | ⟨h, e⟩ | ⟨h, e⟩ <;> rw [e]
      · exact tendsto_top
      · exact hf.pos_mul_atTop h hs
      · exact hf.neg_mul_atTop h hs
    | .fin a, .ninf =>
      unfold Limit2
      simp only [mul]
      rcases infOf_cases a false with ⟨h, e⟩ | ⟨h, e⟩ | ⟨h, e⟩ <;> rw [e]
      · exact tendsto_top
      · exact hf.pos_mul_atBot h hs
      · exact hf.neg_mul_atBot h hs
    | .pinf, .fin b =>
      unfold Limit2
      simp only [mul]
      rcases infOf_cases b true with ⟨h, e⟩ | ⟨h, e⟩ | ⟨h, e⟩ <;> rw [e]
      · exact tendsto_top
      · exact hf.atTop_mul_pos h hs
      · exact hf.atTop_mul_neg h hs
    | .ninf, .fin b =>
      unfold Limit2
      simp only [mul]
      rcases infOf_cases b false with ⟨h, e⟩ | ⟨h, e⟩ | ⟨h, e⟩ <;> rw [e]
      · exact tendsto_top
      · exact hf.atBot_mul_pos h hs
      · exact hf.atBot_mul_neg h hs
  · cases a <;> cases b <;> simp [mul, infOf_nan, Inf]

/-- Zero and infinity; minus two and infinity. -/
example : mul (.fin 0) .pinf = .nan ∧ mul (.fin (-2)) .pinf = .ninf :=
  ⟨(C141_mul _ _).2.2 (.inr (.inr (.inl ⟨rfl, .inl rfl⟩))), by norm_num [mul, infOf]⟩

/-- C141.  Quotients by anything but zero are limits; a nonzero number by zero is the infinity of its sign; NaN comes from
    NaN, from zero by zero and from infinity by infinity only. -/
theorem C141_div (a b : Ext ℝ) : (b ≠ .fin 0 → Limit2 (div a b) (· / ·) a b) ∧
    (∀ x : ℝ, 0 < x → div (.fin x) (.fin 0) = .pinf ∧ div (.fin (-x)) (.fin 0) = .ninf) ∧
    (div .pinf (.fin 0) = .pinf ∧ div .ninf (.fin 0) = .ninf) ∧
    (div a b = .nan ↔ a = .nan ∨ b = .nan ∨ (a = .fin 0 ∧ b = .fin 0) ∨ (Inf a ∧ Inf b)) := by
  refine ⟨fun hb => ?_, fun x hx => ⟨?_, ?_⟩, ⟨?_, ?_⟩, ?_⟩
  · have hf {l m : Filter ℝ} : Tendsto (fun q : ℝ × ℝ => q.1) (l ×ˢ m) l := tendsto_fst
    have hs {l m : Filter ℝ} : Tendsto (fun q : ℝ × ℝ => q.2) (l ×ˢ m) m := tendsto_snd
    match a, b with
    | .fin a, .fin b =>
      have h0 : b ≠ 0 := fun e => hb (by rw [e])
      unfold Limit2
      simp only [div, if_neg h0]
      exact hf.div hs h0
    | .nan, _ => exact tendsto_top
    | .fin a, .nan => exact tendsto_top
    | .pinf, .nan => exact tendsto_top
    | .ninf, .nan => exact tendsto_top
    | .pinf, .pinf => exact tendsto_top
    | .pinf, .ninf => exact tendsto_top
    | .ninf, .pinf => exact tendsto_top
    | .ninf, .ninf => exact tendsto_top
    | .fin a, .pinf => exact hf.div_atTop hs
    | .fin a, .ninf => exact hf.div_atBot hs
    | .pinf, .fin b =>
      have h0 : b ≠ 0 := fun e => hb (by rw [e])
      have hi : Tendsto (fun q : ℝ × ℝ => q.2⁻¹) (near .pinf ×ˢ near (.fin b)) (𝓝 b⁻¹) := hs.inv₀ h0
      unfold Limit2
      simp only [div, div_eq_mul_inv]
      rcases lt_or_gt_of_ne h0 with h | h
      · rw [if_pos h]; exact hf.atTop_mul_neg (inv_lt_zero.2 h) hi
      · rw [if_neg h.le.not_gt]; exact hf.atTop_mul_pos (inv_pos.2 h) hi
    | .ninf, .fin b =>
      have h0 : b ≠ 0 := fun e => hb (by rw [e])
      have hi : Tendsto (fun q : ℝ × ℝ => q.2⁻¹) (near .ninf ×ˢ near (.fin b)) (𝓝 b⁻¹) := hs.inv₀ h0
      unfold Limit2
      simp only [div, div_eq_mul_inv]
      rcases lt_or_gt_of_ne h0 with h | h
      · rw [if_pos h]; exact hf.atBot_mul_neg (inv_lt_zero.2 h) hi
      · rw [if_neg h.le.not_gt]; exact hf.atBot_mul_pos (inv_pos.2 h) hi
  · simp [div, infOf, hx.ne', hx]
  · simp [div, infOf, hx.ne', hx.le]
  · simp [div]
  · simp [div]
  · cases a <;> cases b <;> simp only [div] <;> try split_ifs <;> simp_all [infOf_nan, Inf]
    all_goals simp_all [infOf_nan, Inf]

/-- One by zero, one by infinity. -/
example : div (.fin 1) (.fin 0) = .pinf ∧ div (.fin 1) .pinf = .fin 0 :=
  ⟨((C141_div .nan .nan).2.1 1 one_pos).1, rfl⟩

/-- C141.  The negative, the absolute value, the sign away from zero and the exponential beyond its range are limits (the
    last of real numbers in that direction); only NaN gives NaN. -/
theorem C141_functions (a : Ext ℝ) (lo hi : ℝ) : Limit1 (neg a) (- ·) a ∧ Limit1 (abs a) (|·|) a ∧
    (a ≠ .fin 0 → Limit1 (sgn a) sign a) ∧ (Inf a → Limit1 (exp lo hi a) Real.exp a) ∧
    (∀ x, lo ≤ x → x ≤ hi → exp lo hi (.fin x) = .fin (Real.exp x)) ∧
    (∀ x, hi < x → exp lo hi (.fin x) = .pinf) ∧ (∀ x, x < lo → x ≤ hi → exp lo hi (.fin x) = .fin 0) ∧
    (neg a = .nan ↔ a = .nan) ∧ (abs a = .nan ↔ a = .nan) ∧ (sgn a = .nan ↔ a = .nan) ∧
    (exp lo hi a = .nan ↔ a = .nan) := by
  refine ⟨?_, ?_, fun h => ?_, fun h => ?_, fun x h1 h2 => ?_, fun x h => ?_, fun x h1 h2 => ?_, ?_, ?_, ?_, ?_⟩
  · match a with
    | .fin a => exact tendsto_neg a
    | .nan => exact tendsto_top
    | .pinf => exact tendsto_neg_atTop_atBot
    | .ninf => exact tendsto_neg_atBot_atTop
  · match a with
    | .fin a => exact continuous_abs.tendsto a
    | .nan => exact tendsto_top
    | .pinf => exact tendsto_abs_atTop_atTop
    | .ninf => exact tendsto_abs_atBot_atTop
  · match a with
    | .fin a =>
      have h0 : a ≠ 0 := fun e => h (by rw [e])
      refine tendsto_nhds_of_eventually_eq ?_
      rcases lt_or_gt_of_ne h0 with h | h
      · filter_upwards [Iio_mem_nhds h] with x hx
        simp [sign, h, h.le.not_gt, Set.mem_Iio.1 hx, (Set.mem_Iio.1 hx).le.not_gt]
      · filter_upwards [Ioi_mem_nhds h] with x hx
        simp [sign, h, Set.mem_Ioi.1 hx]
    | .nan => exact tendsto_top
    | .pinf =>
      refine tendsto_nhds_of_eventually_eq ?_
      filter_upwards [eventually_gt_atTop 0] with x hx
      simp [sign, hx]
    | .ninf =>
      refine tendsto_nhds_of_eventually_eq ?_
      filter_upwards [eventually_lt_atBot 0] with x hx
      simp [sign, hx, hx.le.not_gt]
  · rcases h with rfl | rfl
    · exact Real.tendsto_exp_atTop
    · exact Real.tendsto_exp_atBot
  · simp only [exp, if_neg h2.not_gt, if_neg h1.not_gt]
  · simp only [exp, if_pos h]
  · simp only [exp, if_neg h2.not_gt, if_pos h1]
  · cases a <;> simp [neg]
  · cases a <;> simp [abs]
  · cases a <;> simp [sgn]
  · cases a <;> simp only [exp] <;> try split_ifs <;> simp
    all_goals simp

/-- The sign of infinity is one, and `exp` of 710 overflows. -/
example : sgn .pinf = .fin 1 ∧ exp (-745) 709 (.fin 710) = .pinf :=
  ⟨rfl, (C141_functions .nan (-745) 709).2.2.2.2.2.1 710 (by norm_num)⟩

/-- C141.  Comparisons with a finite number are those of all real numbers close by, and fail for NaN. -/
theorem C141_compare (a : Ext ℝ) (t : ℝ) :
    (Below a t ↔ a ≠ .nan ∧ ∀ᶠ x in near a, x < t) ∧ (Above a t ↔ a ≠ .nan ∧ ∀ᶠ x in near a, t < x) := by
  match a with
  | .fin a =>
    refine ⟨⟨fun h => ⟨by simp, Iio_mem_nhds h⟩, fun h => ?_⟩, ⟨fun h => ⟨by simp, Ioi_mem_nhds h⟩, fun h => ?_⟩⟩
    · exact mem_of_mem_nhds (s := Set.Iio t) h.2
    · exact mem_of_mem_nhds (s := Set.Ioi t) h.2
  | .nan => simp [Below, Above]
  | .pinf =>
    refine ⟨⟨fun h => h.elim, fun h => ?_⟩, ⟨fun _ => ⟨by simp, eventually_gt_atTop t⟩, fun _ => trivial⟩⟩
    obtain ⟨x, h1, h2⟩ := ((show ∀ᶠ x in (atTop : Filter ℝ), x < t from h.2).and (eventually_gt_atTop t)).exists
    exact absurd h1 (not_lt.2 h2.le)
  | .ninf =>
    refine ⟨⟨fun _ => ⟨by simp, eventually_lt_atBot t⟩, fun _ => trivial⟩, ⟨fun h => h.elim, fun h => ?_⟩⟩
    obtain ⟨x, h1, h2⟩ := ((show ∀ᶠ x in (atBot : Filter ℝ), t < x from h.2).and (eventually_lt_atBot t)).exists
    exact absurd h1 (not_lt.2 h2.le)

/-- Minus infinity is below 3, NaN is not. -/
example : Below .ninf 3 ∧ ¬ Below .nan 3 := ⟨trivial, id⟩

end Verif.PoissonFloat
