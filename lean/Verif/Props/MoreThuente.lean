import Mathlib.Analysis.Calculus.Deriv.Comp
import Mathlib.Analysis.Calculus.Deriv.Slope
import Mathlib.Analysis.Calculus.Deriv.Mul
import Mathlib.Analysis.Calculus.Deriv.Add
import Mathlib.Analysis.Calculus.LocalExtr.Basic
import Mathlib.Topology.Order.Compact
import Mathlib.Tactic.LinearCombination
import Verif.Lemmas.MoreThuente
import Verif.Props.LineSearch
/-!
The interval of uncertainty and the interpolations of the More-Thuente search (C97, C98).
-/
namespace Verif.Lbfgs
open Spec
variable {n : Nat} {σ K : Type} [Field K] [LinearOrder K] [IsStrictOrderedRing K]

/-- C97.  The default search evaluates the objective only on the ray, at steps between `min_step` and
    `max_step` or at the starting point itself. -/
theorem C97_steps (env : Env n σ K) (p : Par K) (x : Fin n → K) (f : K) (g s : Fin n → K) (stp : K)
    (hmax : p.minStep ≤ p.maxStep) :
    ∀ y ∈ (moreThuente env p x f g s stp).trials,
      ∃ t, (t = 0 ∨ p.minStep ≤ t ∧ t ≤ p.maxStep) ∧ ∀ i, y i = x i + t * s i := by
  simp only [moreThuente]
  split_ifs
  · intro y hy; cases hy
  · intro y hy; cases hy
  · exact mtLoop_permitted env p x s f _ hmax _ _ _ _ _ _ _ _ (.inl rfl) (fun y hy => by cases hy)

/-- A first step of 300 is cut down to `max_step = 2`. -/
example : ((moreThuente exSq ⟨5, 0, 0, 0, 0, LS_MORETHUENTE, 20, 1/10, 2, 1/4, 1/2, 1/2, 0, 0, 0, 1⟩ ![8] 32
    ![8] ![-8] 300).trials.map (fun y => y 0)).reverse = [-8, 2] := by decide +kernel

/-- C97.  One update of the interval of uncertainty, for any function `φ` with derivative `dφ` along the
    ray.  The code works with `φ` or, in its first stage, with `φ t - t * c`.  If the interval brackets a
    minimiser, or is still open to the right of a point where the function decreases, then after the
    update: the recorded values are those of `φ`; the best end is no worse than before and than the
    trial; an interval that brackets keeps doing so and is strictly smaller; the new ends and the next
    trial lie within the previous bounds; if the trial was worse, the next one lies within 66% of the
    interval from its best end. -/
theorem C97_interval (sqrt φ dφ : K → K) (v : Interval K) (stage1 : Bool) (ftest1 dgtest stmin stmax : K)
    (hrec : v.fx = φ v.x ∧ v.dx = dφ v.x ∧ v.fy = φ v.y ∧ v.dy = dφ v.y)
    (c : K) (hc : c = if stage1 = true ∧ ftest1 < φ v.t ∧ φ v.t ≤ φ v.x then dgtest else 0)
    (hb : v.brackt = true → stmin = min v.x v.y ∧ stmax = max v.x v.y ∧
      Brackets (fun t => φ t - t * c) (fun t => dφ t - c) v.x v.y)
    (hn : v.brackt = false → stmin = v.x ∧ v.x < v.t ∧ v.t ≤ stmax ∧ dφ v.x - c < 0)
    (h0 : (mtInterval sqrt v stage1 ftest1 dgtest (φ v.t) (dφ v.t) stmin stmax).1 = 0) :
    let w := (mtInterval sqrt v stage1 ftest1 dgtest (φ v.t) (dφ v.t) stmin stmax).2
    (w.fx = φ w.x ∧ w.dx = dφ w.x ∧ w.fy = φ w.y ∧ w.dy = dφ w.y) ∧
    (φ w.x - w.x * c ≤ φ v.x - v.x * c ∧ φ w.x - w.x * c ≤ φ v.t - v.t * c) ∧
    (v.brackt = true → w.brackt = true ∧ |w.y - w.x| < |v.y - v.x|) ∧
    (w.brackt = true → Brackets (fun t => φ t - t * c) (fun t => dφ t - c) w.x w.y ∧
      (stmin ≤ w.x ∧ w.x ≤ stmax) ∧ (stmin ≤ w.y ∧ w.y ≤ stmax) ∧ (w.x = v.t ∨ w.y = v.t)) ∧
    (w.brackt = false → w.x = v.t) ∧
    (stmin ≤ w.t ∧ w.t ≤ stmax) ∧
    (φ v.x - v.x * c < φ v.t - v.t * c → w.brackt = true ∧
      (w.t - w.x) * (w.y - w.x) ≤ 66 / 100 * (w.y - w.x) ^ 2) := by
  obtain ⟨e1, e2, e3, e4⟩ := hrec
  -- the interval of the function that is worked with
  have key : ∀ v' : Interval K, v' = tilt v c →
      (updateTrial sqrt v' (φ v.t - v.t * c) (dφ v.t - c) stmin stmax).1 = 0 →
      Updated v' (φ v.t - v.t * c) (dφ v.t - c) stmin stmax
        (updateTrial sqrt v' (φ v.t - v.t * c) (dφ v.t - c) stmin stmax).2 := by
    rintro v' rfl h
    refine updateTrial_spec sqrt _ _ _ _ _ ⟨fun h => ?_, fun h => ?_⟩ h
    · obtain ⟨a, b, _, d, e⟩ := hb h
      exact ⟨a, b, by simpa [tilt, e1, e3] using d, by simpa [tilt, e2] using e⟩
    · obtain ⟨a, b, d, e⟩ := hn h
      exact ⟨a, b, d, by simpa [tilt, e2] using e⟩
  have main : ∀ w' w : Interval K, Updated (tilt v c) (φ v.t - v.t * c) (dφ v.t - c) stmin stmax w' →
      w = tilt w' (-c) →
      (w.fx = φ w.x ∧ w.dx = dφ w.x ∧ w.fy = φ w.y ∧ w.dy = dφ w.y) ∧
      (φ w.x - w.x * c ≤ φ v.x - v.x * c ∧ φ w.x - w.x * c ≤ φ v.t - v.t * c) ∧
      (v.brackt = true → w.brackt = true ∧ |w.y - w.x| < |v.y - v.x|) ∧
      (w.brackt = true → Brackets (fun t => φ t - t * c) (fun t => dφ t - c) w.x w.y ∧
        (stmin ≤ w.x ∧ w.x ≤ stmax) ∧ (stmin ≤ w.y ∧ w.y ≤ stmax) ∧ (w.x = v.t ∨ w.y = v.t)) ∧
      (w.brackt = false → w.x = v.t) ∧
      (stmin ≤ w.t ∧ w.t ≤ stmax) ∧
      (φ v.x - v.x * c < φ v.t - v.t * c → w.brackt = true ∧
        (w.t - w.x) * (w.y - w.x) ≤ 66 / 100 * (w.y - w.x) ^ 2) := by
    rintro w' w hu rfl
    obtain ⟨hends, hkeep, hopen, hbr, hshr, htr, hbd⟩ := hu
    simp only [tilt] at hends hkeep hopen hbr hshr htr hbd ⊢
    rw [e1, e2, e3, e4] at hends
    have hrec' : w'.fx = φ w'.x - w'.x * c ∧ w'.dx = dφ w'.x - c ∧ w'.fy = φ w'.y - w'.y * c ∧
        w'.dy = dφ w'.y - c := by
      rcases hends with ⟨a1, a2, a3, a4, a5, a6, _⟩ | ⟨a1, a2, a3, a4, a5, a6, _⟩ |
        ⟨a1, a2, a3, a4, a5, a6, _⟩ <;> (rw [a1, a2, a3, a4, a5, a6]; exact ⟨rfl, rfl, rfl, rfl⟩)
    obtain ⟨r1, r2, r3, r4⟩ := hrec'
    refine ⟨⟨by rw [r1]; ring, by rw [r2]; ring, by rw [r3]; ring, by rw [r4]; ring⟩, ?_,
      fun h => ⟨hkeep h, hshr h⟩, fun h => ?_, hopen, htr, fun h => ?_⟩
    · rw [← r1]
      rcases hends with ⟨_, a2, _, _, _, _, h⟩ | ⟨_, a2, _, _, _, _, h⟩ | ⟨_, a2, _, _, _, _, h⟩ <;> rw [a2]
      · exact ⟨le_refl _, h.le⟩
      · exact ⟨h, le_refl _⟩
      · exact ⟨h, le_refl _⟩
    · obtain ⟨b1, b2, b3, b4, b5⟩ := hbr h
      refine ⟨⟨b1, by simpa [r1, r3] using b2, by simpa [r2] using b3⟩, b4, b5, ?_⟩
      rcases hends with ⟨_, _, _, a, _⟩ | ⟨a, _⟩ | ⟨a, _⟩
      · exact .inr a
      · exact .inl a
      · exact .inl a
    · have hbt : w'.brackt = true := by
        cases hw : w'.brackt
        · rcases hends with ⟨a, _, _, _, _, _, _⟩ | ⟨_, _, _, _, _, _, h'⟩ | ⟨_, _, _, _, _, _, h'⟩
          · have h2 := hopen hw
            rw [a] at h2
            rw [h2] at h
            exact absurd h (lt_irrefl _)
          · exact absurd h (not_lt.2 h')
          · exact absurd h (not_lt.2 h')
        · rfl
      exact ⟨hbt, hbd hbt (by rw [e1]; exact h)⟩
  by_cases hm : stage1 = true ∧ ftest1 < φ v.t ∧ φ v.t ≤ φ v.x
  · rw [if_pos hm] at hc
    subst hc
    unfold mtInterval at h0 ⊢
    rw [if_pos (by rwa [e1])] at h0 ⊢
    refine main _ _ (key _ rfl h0) ?_
    simp [tilt]
  · rw [if_neg hm] at hc
    subst hc
    unfold mtInterval at h0 ⊢
    rw [if_neg (by rwa [e1])] at h0 ⊢
    have hv : v = tilt v 0 := by simp [tilt]
    have := key v hv (by simpa using h0)
    rw [mul_zero, sub_zero, sub_zero] at this
    dsimp only
    refine main (updateTrial sqrt v (φ v.t) (dφ v.t) stmin stmax).2 _ ?_ (by simp [tilt])
    rw [← hv, mul_zero, sub_zero, sub_zero]
    exact this

/-- `(t - 1)²` with the open interval at 0 and trial 3: the trial becomes the other end of a bracketing
    interval, and the next trial is the minimiser 1. -/
example : (mtInterval Rat.sqrt ⟨0, 1, -2, 0, 1, -2, 3, false⟩ true 0 0 (4 : ℚ) 4 0 15).1 = 0 ∧
    let w := (mtInterval Rat.sqrt ⟨0, 1, -2, 0, 1, -2, 3, false⟩ true 0 0 (4 : ℚ) 4 0 15).2
    w.brackt = true ∧ (w.x, w.y, w.t) = (0, 3, 1) := by decide +kernel

/-- The hypotheses of the theorem hold there. -/
example : let v : Interval ℚ := ⟨0, 1, -2, 0, 1, -2, 3, false⟩
    let φ : ℚ → ℚ := fun t => (t - 1) ^ 2
    let dφ : ℚ → ℚ := fun t => 2 * (t - 1)
    (v.fx = φ v.x ∧ v.dx = dφ v.x ∧ v.fy = φ v.y ∧ v.dy = dφ v.y) ∧
    (0 : ℚ) = v.x ∧ v.x < v.t ∧ v.t ≤ 15 ∧ dφ v.x - 0 < 0 := by decide +kernel

/-- C97.  The safeguard after the update: the ends stay; if the bracket has not shrunk below 66% of its
    size two iterations ago, the next trial is its midpoint, otherwise the one interpolated; in either
    case it lies between the ends if the interpolated one did. -/
theorem C97_safeguard (v : Interval K) (prevWidth : K) (hb : v.brackt = true) :
    let w := mtShrink v prevWidth
    (w.x = v.x ∧ w.y = v.y ∧ w.brackt = true) ∧
    (66 / 100 * prevWidth ≤ |v.y - v.x| → w.t = (v.x + v.y) / 2) ∧
    (|v.y - v.x| < 66 / 100 * prevWidth → w.t = v.t) ∧
    (min v.x v.y ≤ v.t ∧ v.t ≤ max v.x v.y → min v.x v.y ≤ w.t ∧ w.t ≤ max v.x v.y) := by
  simp only [mtShrink, hb, true_and]
  have hc : (const 66 100 : K) = 66 / 100 := by simp [const]
  have hm : v.x + const 1 2 * (v.y - v.x) = (v.x + v.y) / 2 := by
    have : (const 1 2 : K) = 1 / 2 := by simp [const]
    rw [this]; ring
  rw [hc, fabs_eq, hm]
  by_cases h : 66 / 100 * prevWidth ≤ |v.y - v.x|
  · rw [if_pos h]
    refine ⟨⟨rfl, rfl, rfl⟩, fun _ => rfl, fun h' => absurd h (not_le.2 h'), fun _ => ?_⟩
    dsimp only
    rcases le_total v.x v.y with hxy | hxy
    · rw [min_eq_left hxy, max_eq_right hxy]; constructor <;> linarith
    · rw [min_eq_right hxy, max_eq_left hxy]; constructor <;> linarith
  · rw [if_neg h]
    exact ⟨⟨rfl, rfl, hb⟩, fun h' => absurd h' h, fun _ => rfl, id⟩

/-- A bracket that only shrank from 10 to 9 is halved. -/
example : (mtShrink (⟨1, 0, -1, 10, 5, 1, 2, true⟩ : Interval ℚ) 10).t = 11 / 2 := by decide +kernel

/-- C97.  What bracketing means: for a differentiable function there is a stationary point between the
    ends, no worse than the best end. -/
theorem C97_minimiser (f d : ℝ → ℝ) (x y : ℝ) (hd : ∀ t, HasDerivAt f (d t) t)
    (h : Brackets f d x y) : ∃ t ∈ Set.uIcc x y, d t = 0 ∧ f t ≤ f x := by
  obtain ⟨hxy, hf, hdx⟩ := h
  rcases hdx.lt_or_eq with hlt | heq
  · have hcont : ContinuousOn f (Set.uIcc x y) := fun t _ => (hd t).continuousAt.continuousWithinAt
    obtain ⟨t, ht, hmin⟩ := isCompact_uIcc.exists_isMinOn ⟨x, Set.left_mem_uIcc⟩ hcont
    have htx : f t ≤ f x := hmin Set.left_mem_uIcc
    -- some point close to `x` is strictly better
    have hbetter : ∃ z ∈ Set.uIcc x y, f z < f x := by
      have hder : HasDerivAt (fun s : ℝ => f (x + s * (y - x))) (d x * (y - x)) 0 := by
        have h1 : HasDerivAt (fun s : ℝ => x + s * (y - x)) (y - x) 0 := by
          simpa using ((hasDerivAt_id (0 : ℝ)).mul_const (y - x)).const_add x
        have h2 : HasDerivAt f (d x) (x + 0 * (y - x)) := by simpa using hd x
        exact HasDerivAt.comp (0 : ℝ) h2 h1
      have hslope := hasDerivAt_iff_tendsto_slope.1 hder
      have hev := hslope.eventually (gt_mem_nhds hlt)
      rw [eventually_nhdsWithin_iff, Metric.eventually_nhds_iff] at hev
      obtain ⟨ε, hε, hball⟩ := hev
      have hs := hball (y := min (ε / 2) 1) (by
        rw [Real.dist_eq, sub_zero, abs_of_pos (by positivity)]
        exact lt_of_le_of_lt (min_le_left _ _) (by linarith)) (ne_of_gt (by positivity))
      rw [slope_def_field, sub_zero] at hs
      have hpos : 0 < min (ε / 2) 1 := by positivity
      have hlt' : f (x + min (ε / 2) 1 * (y - x)) < f x := by
        have := (div_lt_iff₀ hpos).1 hs
        simp at this
        linarith
      refine ⟨x + min (ε / 2) 1 * (y - x), ?_, hlt'⟩
      have h1 : min (ε / 2) 1 ≤ 1 := min_le_right _ _
      rcases le_total x y with hle | hle
      · rw [Set.uIcc_of_le hle]
        constructor <;> nlinarith
      · rw [Set.uIcc_of_ge hle]
        constructor <;> nlinarith
    obtain ⟨z, hz, hfz⟩ := hbetter
    have hft : f t < f x := lt_of_le_of_lt (hmin hz) hfz
    refine ⟨t, ht, ?_, htx⟩
    have hne1 : t ≠ x := by rintro rfl; exact lt_irrefl _ hft
    have hne2 : t ≠ y := by rintro rfl; exact absurd (hft.trans_le hf) (lt_irrefl _)
    have hloc : IsLocalMin f t := by
      refine hmin.isLocalMin ?_
      rcases le_total x y with hle | hle
      · rw [Set.uIcc_of_le hle] at ht ⊢
        exact Icc_mem_nhds (lt_of_le_of_ne ht.1 hne1.symm) (lt_of_le_of_ne ht.2 hne2)
      · rw [Set.uIcc_of_ge hle] at ht ⊢
        exact Icc_mem_nhds (lt_of_le_of_ne ht.1 hne2.symm) (lt_of_le_of_ne ht.2 hne1)
    exact hloc.hasDerivAt_eq_zero (hd t)
  · refine ⟨x, Set.left_mem_uIcc, ?_, le_refl _⟩
    rcases mul_eq_zero.1 heq with h | h
    · exact h
    · exact absurd (sub_eq_zero.1 h).symm hxy

example : Brackets (fun t : ℝ => (t - 1) ^ 2) (fun t => 2 * (t - 1)) 0 3 := by
  refine ⟨by norm_num, by norm_num, by norm_num⟩

/-- C98.  Cubic interpolation: if the objective along the ray is a cubic polynomial that decreases from
    `u` towards `v`, and `v` is worse or the polynomial increases there, the interpolated step is the
    local minimiser of the polynomial, strictly between `u` and `v`. -/
theorem C98_cubic (a b c e u v : ℝ) (hu : cubic' a b c u * (v - u) < 0)
    (hv : cubic a b c e u ≤ cubic a b c e v ∨ 0 < cubic' a b c v * (v - u)) :
    let z := cubicMinimizer Real.sqrt u (cubic a b c e u) (cubic' a b c u) v (cubic a b c e v)
      (cubic' a b c v)
    cubic' a b c z = 0 ∧ 0 ≤ cubic'' a b z ∧ min u v < z ∧ z < max u v := by
  have huv : u ≠ v := by rintro rfl; simp at hu
  have hdu : cubic' a b c u ≠ 0 := by rintro h; rw [h, zero_mul] at hu; exact lt_irrefl _ hu
  have hD : v - u ≠ 0 := sub_ne_zero.2 huv.symm
  have hθ := theta_eq a b c e u v huv
  have hB : 3 * (cubic a b c e u - cubic a b c e v) =
      (-(3 * a * u * (u + (v - u)) + b * (u + (u + (v - u))) + c) - cubic' a b c u - cubic' a b c v) *
        (v - u) := by
    unfold cubic cubic'; ring
  simp only [cubicMinimizer]
  rw [hθ, max2_eq, max2_eq, fabs_eq, fabs_eq, fabs_eq]
  generalize hm : 3 * a * u * (u + (v - u)) + b * (u + (u + (v - u))) + c = m at hB ⊢
  have hvv : u + (v - u) = v := by ring
  have hroot := fun g p q hq hg hp hq' => cubic_root a b c u (v - u) g p q m hq hm.symm hg hp hq'
  rw [hvv] at hroot
  clear hθ hm
  generalize cubic' a b c u = du at *
  generalize cubic' a b c v = dv at *
  have hs : max (max |-m| |du|) |dv| ≠ 0 := by
    have : 0 < |du| := abs_pos.2 hdu
    exact ne_of_gt (lt_of_lt_of_le this ((le_max_right _ _).trans (le_max_left _ _)))
  have hs0 : 0 ≤ max (max |-m| |du|) |dv| := le_max_of_le_right (abs_nonneg _)
  -- the conditions at `v`, scaled
  have hcond : -m * (v - u) ≤ du * (v - u) + dv * (v - u) ∨ 0 < dv * (v - u) := by
    rcases hv with h | h
    · left; nlinarith
    · exact .inr h
  have hdisc : 0 ≤ (-m) ^ 2 - du * dv := by
    have hD2 : 0 < (v - u) ^ 2 := by positivity
    have : 0 ≤ ((-m) ^ 2 - du * dv) * (v - u) ^ 2 := by
      have e : ((-m) ^ 2 - du * dv) * (v - u) ^ 2 =
        (-m * (v - u)) ^ 2 - (du * (v - u)) * (dv * (v - u)) := by ring
      rw [e]
      generalize -m * (v - u) = T at hcond ⊢
      generalize du * (v - u) = A at hu hcond ⊢
      generalize dv * (v - u) = B at hcond ⊢
      rcases lt_or_ge 0 B with hB | hB
      · nlinarith [sq_nonneg T, mul_pos (neg_pos.2 hu) hB]
      · have hT : T ≤ A + B := by
          rcases hcond with h | h
          · exact h
          · exact absurd h (not_lt.2 hB)
        nlinarith [mul_nonneg (neg_nonneg.2 hu.le) (neg_nonneg.2 hB), sq_nonneg A, sq_nonneg B]
    exact nonneg_of_mul_nonneg_left this hD2
  have hγ := gamma_sq _ (-m) du dv hs hdisc
  have hγ0 : 0 ≤ max (max |-m| |du|) |dv| * Real.sqrt (-m / max (max |-m| |du|) |dv| *
      (-m / max (max |-m| |du|) |dv|) - du / max (max |-m| |du|) |dv| * (dv / max (max |-m| |du|) |dv|)) :=
    mul_nonneg hs0 (Real.sqrt_nonneg _)
  generalize max (max |-m| |du|) |dv| * Real.sqrt (-m / max (max |-m| |du|) |dv| *
      (-m / max (max |-m| |du|) |dv|) - du / max (max |-m| |du|) |dv| * (dv / max (max |-m| |du|) |dv|))
      = γ at hγ hγ0 ⊢
  have hsign : ∃ g, (if v < u then -γ else γ) = g ∧ 0 ≤ g * (v - u) ∧ g ^ 2 = m ^ 2 - du * dv := by
    refine ⟨_, rfl, ?_, ?_⟩
    · split_ifs with h
      · nlinarith
      · exact mul_nonneg hγ0 (sub_nonneg.2 (not_lt.1 h))
    · split_ifs
      · rw [neg_sq, hγ, neg_sq]
      · rw [hγ, neg_sq]
  obtain ⟨g, hg, hg0, hg2⟩ := hsign
  rw [hg]
  have hcore := cubic_core (A := du * (v - u)) (B := dv * (v - u)) (T := -m * (v - u)) (G := g * (v - u))
    hu hg0 (by rw [mul_pow, hg2]; ring) hcond
  obtain ⟨c1, c2, c3⟩ := hcore
  have hq : g - du + g + dv ≠ 0 := by
    rintro h
    have : 2 * (g * (v - u)) - du * (v - u) + dv * (v - u) = (g - du + g + dv) * (v - u) := by ring
    rw [this, h, zero_mul] at c1
    exact lt_irrefl _ c1
  obtain ⟨r1, r2⟩ := hroot g (g - du + -m) (g - du + g + dv) hq hg2 (by ring) rfl
  refine ⟨r1, ?_, ?_⟩
  · have hD2 : 0 < (v - u) ^ 2 := by positivity
    refine nonneg_of_mul_nonneg_left (b := (v - u) ^ 2) ?_ hD2
    have : cubic'' a b (u + (g - du + -m) / (g - du + g + dv) * (v - u)) * (v - u) ^ 2 =
      2 * (g * (v - u)) := by
      rw [pow_two, ← mul_assoc, r2]; ring
    rw [this]
    linarith
  · have hr : (g - du + -m) / (g - du + g + dv) =
        (g * (v - u) - du * (v - u) + -m * (v - u)) / (2 * (g * (v - u)) - du * (v - u) + dv * (v - u)) := by
      rw [div_eq_div_iff hq (ne_of_gt c1)]; ring
    have h0 : 0 < (g - du + -m) / (g - du + g + dv) := by rw [hr]; exact div_pos c2 c1
    have h1 : (g - du + -m) / (g - du + g + dv) < 1 := by rw [hr, div_lt_one c1]; linarith
    generalize (g - du + -m) / (g - du + g + dv) = r at h0 h1
    rcases lt_or_gt_of_ne huv with h | h
    · rw [min_eq_left h.le, max_eq_right h.le]
      constructor <;> nlinarith
    · rw [min_eq_right h.le, max_eq_left h.le]
      constructor <;> nlinarith

/-- `t³ - 3 t` decreases at 0 and increases at 2. -/
example : cubic' (1 : ℝ) 0 (-3) 0 * (2 - 0) < 0 ∧ 0 < cubic' (1 : ℝ) 0 (-3) 2 * (2 - 0) := by
  unfold cubic'; norm_num

/-- C98.  Cubic extrapolation beyond `v`, seen from `u`, for an objective that is a cubic polynomial along
    the ray: if the slopes at `u` and `v` have the same sign (the only case in which the code extrapolates)
    and the polynomial has a local minimiser beyond `v`, the result is that minimiser; if it has none the result is one of the two given bounds. -/
theorem C98_extrapolation (a b c e u v xmin xmax : ℝ) (huv : u ≠ v) :
    let z := cubicMinimizer2 Real.sqrt u (cubic a b c e u) (cubic' a b c u) v (cubic a b c e v)
      (cubic' a b c v) xmin xmax
    (∀ z0, cubic' a b c z0 = 0 → 0 < cubic'' a b z0 → 0 < (z0 - v) * (v - u) →
      0 < cubic' a b c u * cubic' a b c v → z = z0) ∧
    ((¬ ∃ z0, cubic' a b c z0 = 0 ∧ 0 < cubic'' a b z0 ∧ 0 < (z0 - v) * (v - u)) →
      z = xmin ∨ z = xmax) := by
  have hD : u - v ≠ 0 := sub_ne_zero.2 huv
  have hD2 : 0 < (u - v) ^ 2 := by positivity
  obtain ⟨g, m, th, hm, hg0, hg2, hg3, hz⟩ := cubicMinimizer2_eq a b c e u v xmin xmax huv
  dsimp only
  rw [hz]
  have hvv : v + (u - v) = u := by ring
  constructor
  · intro z0 h1 h2 h3 hdv
    -- the minimiser in the coordinates of the code
    have hr0 : ∃ r, z0 = v + r * (u - v) := ⟨(z0 - v) / (u - v), by field_simp; ring⟩
    obtain ⟨r, rfl⟩ := hr0
    have hr : r < 0 := by nlinarith
    have e2 : cubic' a b c (v + r * (u - v)) =
        (cubic' a b c v + cubic' a b c u - 2 * m) * r ^ 2 - 2 * (cubic' a b c v - m) * r +
          cubic' a b c v := by
      rw [hm]; unfold cubic'; ring
    have e3 : cubic'' a b (v + r * (u - v)) * (u - v) =
        2 * (cubic' a b c v + cubic' a b c u - 2 * m) * r - 2 * (cubic' a b c v - m) := by
      rw [hm]; unfold cubic' cubic''; ring
    have e4 : (cubic'' a b (v + r * (u - v)) * (u - v)) ^ 2 =
        4 * (m ^ 2 - cubic' a b c v * cubic' a b c u) := by
      rw [e3]
      rw [e2] at h1
      linear_combination 4 * (cubic' a b c v + cubic' a b c u - 2 * m) * h1
    have hdisc : 0 ≤ m ^ 2 - cubic' a b c v * cubic' a b c u := by
      nlinarith [sq_nonneg (cubic'' a b (v + r * (u - v)) * (u - v))]
    have hgg := hg2 hdisc
    have hgv : cubic'' a b (v + r * (u - v)) * (u - v) = 2 * g := by
      have hsq : (cubic'' a b (v + r * (u - v)) * (u - v)) ^ 2 = (2 * g) ^ 2 := by
        rw [e4, mul_pow, hgg]; ring
      rcases sq_eq_sq_iff_eq_or_eq_neg.1 hsq with h | h
      · exact h
      · have : 0 < cubic'' a b (v + r * (u - v)) * (u - v) * (u - v) := by
          rw [mul_assoc, ← pow_two]; exact mul_pos h2 hD2
        rw [h] at this
        nlinarith
    have hgne : g ≠ 0 := by
      rintro rfl
      rw [mul_zero] at hgv
      rcases mul_eq_zero.1 hgv with h | h
      · rw [h] at h2; exact lt_irrefl _ h2
      · exact hD h
    rw [e3] at hgv
    rw [e2] at h1
    generalize cubic' a b c v = dv at *
    generalize cubic' a b c u = du at *
    have k1 : (g - dv + g + du) * r = g - dv + -m := by
      have a1 : (dv + du - 2 * m) * r = g + dv - m := by linarith
      have a2 : (g - dv + m) * r = -dv := by
        have : (dv + du - 2 * m) * r ^ 2 = (g + dv - m) * r := by rw [pow_two, ← mul_assoc, a1]
        rw [this] at h1
        linear_combination h1
      linear_combination a1 + 2 * a2
    have hq : g - dv + g + du ≠ 0 := by
      intro h
      rw [h, zero_mul] at k1
      have a2 : (g - dv + m) * r = -dv := by
        have a1 : (dv + du - 2 * m) * r = g + dv - m := by linarith
        have : (dv + du - 2 * m) * r ^ 2 = (g + dv - m) * r := by rw [pow_two, ← mul_assoc, a1]
        rw [this] at h1
        linear_combination h1
      have hgm : g = dv + m := by linarith
      have hdu : du = dv - 2 * g := by linarith
      rw [hgm] at a2
      rw [hdu, hgm] at hdv
      have hdv2 : dv = -2 * m * r := by linarith
      rw [hdv2] at hdv
      nlinarith [mul_nonneg (sq_nonneg m) (mul_pos (neg_pos.2 hr) (by linarith : 0 < 1 - r)).le]
    have hrr : (g - dv + -m) / (g - dv + g + du) = r := by
      rw [div_eq_iff hq, ← k1]; ring
    rw [hrr, if_pos ⟨hr, hgne⟩]
    ring
  · intro hno
    by_cases h : (g - cubic' a b c v + -m) / (g - cubic' a b c v + g + cubic' a b c u) < 0 ∧ g ≠ 0
    · exfalso
      apply hno
      obtain ⟨hr, hgne⟩ := h
      have hq : g - cubic' a b c v + g + cubic' a b c u ≠ 0 := by
        intro h; rw [h, div_zero] at hr; exact lt_irrefl _ hr
      have hroot := cubic_root a b c v (u - v) g (g - cubic' a b c v + -m)
        (g - cubic' a b c v + g + cubic' a b c u) m hq hm (by rw [hvv]; exact hg2 (hg3 hgne)) (by ring)
        (by rw [hvv])
      obtain ⟨r1, r2⟩ := hroot
      generalize (g - cubic' a b c v + -m) / (g - cubic' a b c v + g + cubic' a b c u) = r at *
      refine ⟨_, r1, ?_, ?_⟩
      · refine pos_of_mul_pos_left (b := (u - v) ^ 2) ?_ hD2.le
        have : cubic'' a b (v + r * (u - v)) * (u - v) ^ 2 = 2 * (g * (u - v)) := by
          rw [pow_two, ← mul_assoc, r2]; ring
        rw [this]
        have : 0 < g * (u - v) := lt_of_le_of_ne hg0 (mul_ne_zero hgne hD).symm
        linarith
      · nlinarith
    · rw [if_neg h]
      split_ifs
      · exact .inr rfl
      · exact .inl rfl

/-- `t³ - 3 t` from -1/2 and 0: the minimiser beyond 0 is 1. -/
example : (-1/2 : ℝ) ≠ 0 ∧ cubic' (1 : ℝ) 0 (-3) 1 = 0 ∧ 0 < cubic'' (1 : ℝ) 0 1 ∧
    0 < ((1 : ℝ) - 0) * (0 - (-1/2)) ∧ 0 < cubic' (1 : ℝ) 0 (-3) (-1/2) * cubic' (1 : ℝ) 0 (-3) 0 := by
  unfold cubic' cubic''; norm_num

/-- C98.  Quadratic interpolation from two values and a slope, and from two slopes: for a quadratic
    objective both give its stationary point, from any two different steps. -/
theorem C98_quadratic (b c e u v : K) (hb : b ≠ 0) (huv : u ≠ v) :
    quardMinimizer u (cubic 0 b c e u) (cubic' 0 b c u) v (cubic 0 b c e v) = -c / (2 * b) ∧
    quardMinimizer2 u (cubic' 0 b c u) v (cubic' 0 b c v) = -c / (2 * b) := by
  have hD : v - u ≠ 0 := sub_ne_zero.2 huv.symm
  constructor
  · have e1 : (cubic 0 b c e u - cubic 0 b c e v) / (v - u) + cubic' 0 b c u = -(b * (v - u)) := by
      unfold cubic cubic'
      field_simp
      ring
    simp only [quardMinimizer]
    rw [e1]
    simp only [const, Nat.cast_ofNat, Nat.cast_one, div_one]
    unfold cubic'
    field_simp
    ring
  · have e1 : cubic' 0 b c v - cubic' 0 b c u = 2 * b * (v - u) := by unfold cubic'; ring
    unfold quardMinimizer2
    rw [e1]
    unfold cubic'
    field_simp
    ring

/-- `3 t² - 12 t + 1` from the steps 0 and 5: the minimiser is 2. -/
example : quardMinimizer (0 : ℚ) 1 (-12) 5 16 = 2 ∧ quardMinimizer2 (0 : ℚ) (-12) 5 18 = 2 := by
  decide +kernel

/-- C98.  Which interpolation becomes the next trial, before it is kept within bounds.  After a worse trial: the
    cubic if it is closer to the best step than the quadratic, else the middle of the two.  After a better trial
    with a slope of the other sign: whichever of the cubic and the secant is further from the trial.  With a
    smaller slope of the same sign: the closer of the extrapolation and the secant if a minimiser is bracketed,
    else the further.  With a slope that did not get smaller: the cubic between the trial and the other end if a
    minimiser is bracketed, else the bound in the direction of the search.  A minimiser is bracketed from a worse
    trial or a slope of the other sign on. -/
theorem C98_choice (sqrt : K → K) (v : Interval K) (ft dt tmin tmax : K) :
    let r := trialValue sqrt v ft dt tmin tmax
    let mc := cubicMinimizer sqrt v.x v.fx v.dx v.t ft dt
    let me := cubicMinimizer2 sqrt v.x v.fx v.dx v.t ft dt tmin tmax
    let mq := quardMinimizer v.x v.fx v.dx v.t ft
    let ms := quardMinimizer2 v.x v.dx v.t dt
    (v.fx < ft → r.2.2 = true ∧ r.1 = if |mc - v.x| < |mq - v.x| then mc else (mc + mq) / 2) ∧
    (ft ≤ v.fx → dt * v.dx < 0 → r.2.2 = true ∧ (r.1 = mc ∨ r.1 = ms) ∧ |r.1 - v.t| = max |mc - v.t| |ms - v.t|) ∧
    (ft ≤ v.fx → 0 ≤ dt * v.dx → r.2.2 = v.brackt) ∧
    (ft ≤ v.fx → 0 ≤ dt * v.dx → |dt| < |v.dx| → (r.1 = me ∨ r.1 = ms) ∧
      |r.1 - v.t| = if v.brackt then min |me - v.t| |ms - v.t| else max |me - v.t| |ms - v.t|) ∧
    (ft ≤ v.fx → 0 ≤ dt * v.dx → |v.dx| ≤ |dt| →
      r.1 = if v.brackt then cubicMinimizer sqrt v.t ft dt v.y v.fy v.dy else if v.x < v.t then tmax else tmin) := by
  intro r mc me mq ms
  have hsd : signDiff dt v.dx ↔ dt * v.dx < 0 := by
    by_cases h0 : v.dx = 0
    · unfold signDiff
      simp [h0]
    · exact signDiff_iff h0
  have hc : const 1 2 * (mq - mc) = (1 / 2 : K) * (mq - mc) := by simp [const]
  refine ⟨fun h1 => ?_, fun h1 h2 => ?_, fun h1 h2 => ?_, fun h1 h2 h3 => ?_, fun h1 h2 h3 => ?_⟩
  · have hr : r = (if fabs (mc - v.x) < fabs (mq - v.x) then mc else mc + const 1 2 * (mq - mc), true, true) := by
      show trialValue sqrt v ft dt tmin tmax = _
      unfold trialValue
      rw [if_pos h1]
    rw [hr, fabs_eq, fabs_eq, hc]
    refine ⟨rfl, ?_⟩
    show (if _ then _ else _) = _
    split_ifs
    · rfl
    · ring
  · have hr : r = (if fabs (ms - v.t) < fabs (mc - v.t) then mc else ms, false, true) := by
      show trialValue sqrt v ft dt tmin tmax = _
      unfold trialValue
      rw [if_neg (not_lt.2 h1), if_pos (hsd.2 h2)]
    rw [hr, fabs_eq, fabs_eq]
    refine ⟨rfl, ?_⟩
    show ((if _ then _ else _) = _ ∨ (if _ then _ else _) = _) ∧ |(if _ then _ else _) - _| = _
    split_ifs with h
    · exact ⟨.inl rfl, (max_eq_left h.le).symm⟩
    · exact ⟨.inr rfl, (max_eq_right (not_lt.1 h)).symm⟩
  · show (trialValue sqrt v ft dt tmin tmax).2.2 = _
    unfold trialValue
    rw [if_neg (not_lt.2 h1), if_neg (fun h => not_lt.2 h2 (hsd.1 h))]
    split_ifs <;> rfl
  · have hr : r.1 = if v.brackt then if fabs (v.t - me) < fabs (v.t - ms) then me else ms
        else if fabs (v.t - ms) < fabs (v.t - me) then me else ms := by
      show (trialValue sqrt v ft dt tmin tmax).1 = _
      unfold trialValue
      rw [if_neg (not_lt.2 h1), if_neg (fun h => not_lt.2 h2 (hsd.1 h)), if_pos (by rw [fabs_eq, fabs_eq]; exact h3)]
    rw [hr, fabs_eq, fabs_eq, abs_sub_comm v.t, abs_sub_comm v.t]
    split_ifs with hb h h
    · exact ⟨.inl rfl, (min_eq_left h.le).symm⟩
    · exact ⟨.inr rfl, (min_eq_right (not_lt.1 h)).symm⟩
    · exact ⟨.inl rfl, (max_eq_left h.le).symm⟩
    · exact ⟨.inr rfl, (max_eq_right (not_lt.1 h)).symm⟩
  · show (trialValue sqrt v ft dt tmin tmax).1 = _
    unfold trialValue
    rw [if_neg (not_lt.2 h1), if_neg (fun h => not_lt.2 h2 (hsd.1 h)),
      if_neg (by rw [fabs_eq, fabs_eq]; exact not_lt.2 h3)]

/-- From the step 0 with slope -1 to the better step 1 with slope 2 the secant gives 1/3; a slope of -2 at the
    step 1 leads to the bound. -/
example : (trialValue (fun z : ℚ => z) ⟨0, 0, -1, 0, 0, -1, 1, false⟩ (-1/4) 2 0 5).1 ≠ 5 ∧
    quardMinimizer2 (0 : ℚ) (-1) 1 2 = 1/3 ∧
    (trialValue (fun z : ℚ => z) ⟨0, 0, -1, 0, 0, -1, 1, false⟩ (-1/4) (-2) 0 5).1 = 5 := by
  decide +kernel

end Verif.Lbfgs
