import Mathlib.Analysis.Real.Sqrt
import Mathlib.Tactic.FieldSimp
import Mathlib.Tactic.LinearCombination
import Verif.Lemmas.LineSearch
import Verif.Spec.LineSearch
/-! Helper lemmas about the interval of uncertainty of the More-Thuente search. -/
namespace Verif.Lbfgs
open Spec
variable {n : Nat} {σ K : Type} [Field K] [LinearOrder K] [IsStrictOrderedRing K]

omit [Field K] [IsStrictOrderedRing K] in
theorem min2_eq (a b : K) : min2 a b = min a b := by
  unfold min2
  split_ifs with h
  · exact (min_eq_left h).symm
  · exact (min_eq_right (not_le.1 h).le).symm

omit [Field K] [IsStrictOrderedRing K] in
theorem max2_eq (a b : K) : max2 a b = max a b := by
  unfold max2
  split_ifs with h
  · exact (max_eq_left (by assumption)).symm
  · exact (max_eq_right (le_of_not_ge h)).symm

theorem signDiff_iff {dt dx : K} (h : dx ≠ 0) : signDiff dt dx ↔ dt * dx < 0 := by
  unfold signDiff
  rw [fabs_eq, show dt * (dx / |dx|) = dt * dx / |dx| by ring, div_lt_iff₀ (abs_pos.2 h), zero_mul]

/-- The interval for the function from which `t * c` is subtracted. -/
def tilt (v : Interval K) (c : K) : Interval K :=
  { v with fx := v.fx - v.x * c, dx := v.dx - c, fy := v.fy - v.y * c, dy := v.dy - c }

/-- The facts about an interval the update needs and keeps. -/
structure Sound (v : Interval K) (tmin tmax : K) : Prop where
  br : v.brackt = true → tmin = min v.x v.y ∧ tmax = max v.x v.y ∧ v.fx ≤ v.fy ∧ v.dx * (v.y - v.x) ≤ 0
  op : v.brackt = false → tmin = v.x ∧ v.x < v.t ∧ v.t ≤ tmax ∧ v.dx < 0

theorem clip_mem (w : Interval K) (sel : K × Bool × Bool) (tmin tmax : K) (h : tmin ≤ tmax)
    (hw : sel.2.2 = true → (tmin ≤ w.x ∧ w.x ≤ tmax) ∧ tmin ≤ w.y ∧ w.y ≤ tmax) :
    tmin ≤ clipTrial w sel tmin tmax ∧ clipTrial w sel tmin tmax ≤ tmax ∧
    (sel.2.2 = true → sel.2.1 = true →
      (clipTrial w sel tmin tmax - w.x) * (w.y - w.x) ≤ 66 / 100 * (w.y - w.x) ^ 2) := by
  unfold clipTrial
  dsimp only
  have hc : (const 66 100 : K) = 66 / 100 := by simp [const]
  rw [hc]
  have h1 : tmin ≤ (if (if tmax < sel.1 then tmax else sel.1) < tmin then tmin
      else (if tmax < sel.1 then tmax else sel.1)) ∧
      (if (if tmax < sel.1 then tmax else sel.1) < tmin then tmin
      else (if tmax < sel.1 then tmax else sel.1)) ≤ tmax := by
    split_ifs with a b b
    · exact ⟨le_refl _, h⟩
    · exact ⟨h, le_refl _⟩
    · exact ⟨le_refl _, h⟩
    · exact ⟨not_lt.1 b, not_lt.1 a⟩
  generalize (if (if tmax < sel.1 then tmax else sel.1) < tmin then tmin
      else (if tmax < sel.1 then tmax else sel.1)) = nt at h1 ⊢
  by_cases c : sel.2.2 = true ∧ sel.2.1 = true
  · rw [if_pos c]
    obtain ⟨⟨a1, a2⟩, a3, a4⟩ := hw c.1
    by_cases xy : w.x < w.y
    · rw [if_pos xy]
      by_cases q : w.x + 66 / 100 * (w.y - w.x) < nt
      · rw [if_pos q]
        exact ⟨by linarith, by linarith, fun _ _ => by apply le_of_eq; ring⟩
      · rw [if_neg q]
        exact ⟨h1.1, h1.2, fun _ _ => by nlinarith⟩
    · rw [if_neg xy]
      by_cases q : nt < w.x + 66 / 100 * (w.y - w.x)
      · rw [if_pos q]
        exact ⟨by linarith, by linarith, fun _ _ => by apply le_of_eq; ring⟩
      · rw [if_neg q]
        exact ⟨h1.1, h1.2, fun _ _ => by nlinarith⟩
  · rw [if_neg c]
    exact ⟨h1.1, h1.2, fun a b => absurd ⟨a, b⟩ c⟩

/-- What one update achieves. -/
structure Updated (v : Interval K) (ft dt tmin tmax : K) (w : Interval K) : Prop where
  ends : (w.x = v.x ∧ w.fx = v.fx ∧ w.dx = v.dx ∧ w.y = v.t ∧ w.fy = ft ∧ w.dy = dt ∧ v.fx < ft) ∨
    (w.x = v.t ∧ w.fx = ft ∧ w.dx = dt ∧ w.y = v.x ∧ w.fy = v.fx ∧ w.dy = v.dx ∧ ft ≤ v.fx) ∨
    (w.x = v.t ∧ w.fx = ft ∧ w.dx = dt ∧ w.y = v.y ∧ w.fy = v.fy ∧ w.dy = v.dy ∧ ft ≤ v.fx)
  keep : v.brackt = true → w.brackt = true
  opened : w.brackt = false → w.x = v.t
  br : w.brackt = true → w.x ≠ w.y ∧ w.fx ≤ w.fy ∧ w.dx * (w.y - w.x) ≤ 0 ∧
    (tmin ≤ w.x ∧ w.x ≤ tmax) ∧ tmin ≤ w.y ∧ w.y ≤ tmax
  shrink : v.brackt = true → |w.y - w.x| < |v.y - v.x|
  trial : tmin ≤ w.t ∧ w.t ≤ tmax
  bound : w.brackt = true → v.fx < ft → (w.t - w.x) * (w.y - w.x) ≤ 66 / 100 * (w.y - w.x) ^ 2

theorem updateTrial_spec (sqrt : K → K) (v : Interval K) (ft dt tmin tmax : K)
    (hs : Sound v tmin tmax) (h0 : (updateTrial sqrt v ft dt tmin tmax).1 = 0) :
    Updated v ft dt tmin tmax (updateTrial sqrt v ft dt tmin tmax).2 := by
  unfold updateTrial at h0 ⊢
  rw [min2_eq, max2_eq] at h0 ⊢
  by_cases c1 : v.brackt = true ∧ (v.t ≤ min v.x v.y ∨ max v.x v.y ≤ v.t)
  · rw [if_pos c1] at h0; exact absurd (show ERR_OUTOFINTERVAL = 0 from h0) (by decide)
  rw [if_neg c1] at h0 ⊢
  by_cases c2 : v.brackt = true ∧ 0 ≤ v.dx * (v.t - v.x)
  · rw [if_pos c2] at h0; exact absurd (show ERR_INCREASEGRADIENT = 0 from h0) (by decide)
  rw [if_neg c2] at h0 ⊢
  by_cases c3 : v.brackt = true ∧ tmax < tmin
  · rw [if_pos c3] at h0; exact absurd (show ERR_TMINMAX = 0 from h0) (by decide)
  rw [if_neg c3] at h0 ⊢
  clear h0
  dsimp only
  -- the common facts
  have hneg : v.dx * (v.t - v.x) < 0 := by
    cases hb : v.brackt
    · obtain ⟨_, a, _, b⟩ := hs.op hb
      exact mul_neg_of_neg_of_pos b (sub_pos.2 a)
    · exact not_le.1 fun h => c2 ⟨hb, h⟩
  have hdx : v.dx ≠ 0 := by rintro h; rw [h, zero_mul] at hneg; exact lt_irrefl _ hneg
  have hle : tmin ≤ v.x ∧ v.x ≤ tmax ∧ tmin ≤ v.t ∧ v.t ≤ tmax := by
    cases hb : v.brackt
    · obtain ⟨a, b, c, _⟩ := hs.op hb
      exact ⟨a.le, b.le.trans c, a.le.trans b.le, c⟩
    · obtain ⟨a, b, _⟩ := hs.br hb
      have := not_or.1 fun h => c1 ⟨hb, h⟩
      rw [a, b]
      exact ⟨min_le_left _ _, le_max_left _ _, (not_le.1 this.1).le, (not_le.1 this.2).le⟩
  have hxt : v.x ≠ v.t := by
    rintro h; rw [h, sub_self, mul_zero] at hneg; exact lt_irrefl _ hneg
  have hy : v.brackt = true → tmin ≤ v.y ∧ v.y ≤ tmax ∧ 0 < (v.t - v.x) * (v.y - v.t) := by
    intro hb
    obtain ⟨a, b, _⟩ := hs.br hb
    have := not_or.1 fun h => c1 ⟨hb, h⟩
    rw [a, b]
    refine ⟨min_le_right _ _, le_max_right _ _, ?_⟩
    obtain ⟨l, u⟩ := this
    rw [not_le] at l u
    rcases min_lt_iff.1 l with l | l <;> rcases lt_max_iff.1 u with u | u
    · exact absurd (l.trans u) (lt_irrefl _)
    · exact mul_pos (sub_pos.2 l) (sub_pos.2 u)
    · exact mul_pos_of_neg_of_neg (sub_neg.2 u) (sub_neg.2 l)
    · exact absurd (l.trans u) (lt_irrefl _)
  have habs : v.brackt = true → |v.t - v.x| < |v.y - v.x| ∧ |v.y - v.t| < |v.y - v.x| := by
    intro hb
    obtain ⟨_, _, hp⟩ := hy hb
    rcases lt_or_gt_of_ne hxt with h | h
    · have h2 : 0 < v.y - v.t := (mul_pos_iff_of_pos_left (sub_pos.2 h)).1 hp
      rw [abs_of_pos (sub_pos.2 h), abs_of_pos h2, abs_of_pos (by linarith)]
      constructor <;> linarith
    · have h2 : v.y - v.t < 0 := by
        by_contra hc
        exact absurd hp (not_lt.2 (mul_nonpos_of_nonpos_of_nonneg (sub_neg.2 h).le (not_lt.1 hc)))
      rw [abs_of_neg (sub_neg.2 h), abs_of_neg h2, abs_of_neg (by linarith)]
      constructor <;> linarith
  have hmm : tmin ≤ tmax := hle.1.trans hle.2.1
  by_cases k1 : v.fx < ft
  · have hsel : (trialValue sqrt v ft dt tmin tmax).2 = (true, true) := by
      unfold trialValue; simp only [if_pos k1]
    have hw : newInterval v ft dt = { v with y := v.t, fy := ft, dy := dt } := by
      unfold newInterval; rw [if_pos k1]
    rw [hw]
    have hc := clip_mem { v with y := v.t, fy := ft, dy := dt } (trialValue sqrt v ft dt tmin tmax) tmin
      tmax hmm (fun _ => ⟨⟨hle.1, hle.2.1⟩, hle.2.2⟩)
    generalize clipTrial { v with y := v.t, fy := ft, dy := dt } (trialValue sqrt v ft dt tmin tmax)
      tmin tmax = T at hc ⊢
    rw [hsel] at hc ⊢
    exact ⟨.inl ⟨rfl, rfl, rfl, rfl, rfl, rfl, k1⟩, fun _ => rfl, fun h => (by cases h),
      fun _ => ⟨hxt, k1.le, hneg.le, ⟨hle.1, hle.2.1⟩, hle.2.2⟩, fun hb => (habs hb).1, ⟨hc.1, hc.2.1⟩,
      fun _ _ => hc.2.2 rfl rfl⟩
  · have k1' := not_lt.1 k1
    by_cases k2 : signDiff dt v.dx
    · have hsel : (trialValue sqrt v ft dt tmin tmax).2.2 = true := by
        unfold trialValue; simp only [if_neg k1, if_pos k2]
      have hw : newInterval v ft dt =
          { v with y := v.x, fy := v.fx, dy := v.dx, x := v.t, fx := ft, dx := dt } := by
        unfold newInterval; rw [if_neg k1, if_pos k2]
      rw [hw]
      have hc := clip_mem { v with y := v.x, fy := v.fx, dy := v.dx, x := v.t, fx := ft, dx := dt }
        (trialValue sqrt v ft dt tmin tmax) tmin tmax hmm (fun _ => ⟨hle.2.2, ⟨hle.1, hle.2.1⟩⟩)
      generalize clipTrial { v with y := v.x, fy := v.fx, dy := v.dx, x := v.t, fx := ft, dx := dt }
        (trialValue sqrt v ft dt tmin tmax) tmin tmax = T at hc ⊢
      rw [hsel]
      have hsg : dt * v.dx < 0 := (signDiff_iff hdx).1 k2
      have hd : dt * (v.x - v.t) ≤ 0 := by
        have h1 : 0 < (dt * v.dx) * (v.dx * (v.t - v.x)) := mul_pos_of_neg_of_neg hsg hneg
        have h2 : 0 < v.dx ^ 2 * (dt * (v.t - v.x)) := by
          have : (dt * v.dx) * (v.dx * (v.t - v.x)) = v.dx ^ 2 * (dt * (v.t - v.x)) := by ring
          rwa [← this]
        have := (mul_pos_iff_of_pos_left (by positivity)).1 h2
        nlinarith
      refine ⟨.inr (.inl ⟨rfl, rfl, rfl, rfl, rfl, rfl, k1'⟩), fun _ => rfl, fun h => (by cases h),
        fun _ => ⟨hxt.symm, k1', hd, hle.2.2, ⟨hle.1, hle.2.1⟩⟩, fun hb => ?_, ⟨hc.1, hc.2.1⟩,
        fun _ h => absurd h k1⟩
      dsimp only
      rw [abs_sub_comm]
      exact (habs hb).1
    · have hsel : (trialValue sqrt v ft dt tmin tmax).2.2 = v.brackt := by
        unfold trialValue; simp only [if_neg k1, if_neg k2]
        split_ifs <;> rfl
      have hw : newInterval v ft dt = { v with x := v.t, fx := ft, dx := dt } := by
        unfold newInterval; rw [if_neg k1, if_neg k2]
      rw [hw]
      have hc := clip_mem { v with x := v.t, fx := ft, dx := dt }
        (trialValue sqrt v ft dt tmin tmax) tmin tmax hmm
        (fun h => ⟨hle.2.2, (hy (hsel ▸ h)).1, (hy (hsel ▸ h)).2.1⟩)
      generalize clipTrial { v with x := v.t, fx := ft, dx := dt }
        (trialValue sqrt v ft dt tmin tmax) tmin tmax = T at hc ⊢
      rw [hsel]
      have hsg : 0 ≤ dt * v.dx := not_lt.1 fun h => k2 ((signDiff_iff hdx).2 h)
      refine ⟨.inr (.inr ⟨rfl, rfl, rfl, rfl, rfl, rfl, k1'⟩), fun h => h, fun _ => rfl,
        fun hb => ⟨?_, ?_, ?_, hle.2.2, (hy hb).1, (hy hb).2.1⟩, fun hb => (habs hb).2, ⟨hc.1, hc.2.1⟩,
        fun _ h => absurd h k1⟩
      · rintro (h : v.t = v.y)
        have := (hy hb).2.2
        rw [h, sub_self, mul_zero] at this
        exact lt_irrefl _ this
      · exact k1'.trans (hs.br hb).2.2.1
      · change dt * (v.y - v.t) ≤ 0
        have h1 := (hy hb).2.2
        by_contra hcon
        rw [not_le] at hcon
        have h2 : 0 < dt * (v.t - v.x) := by
          have : 0 < (dt * (v.y - v.t)) * ((v.t - v.x) * (v.y - v.t)) := mul_pos hcon h1
          have h3 : (dt * (v.y - v.t)) * ((v.t - v.x) * (v.y - v.t)) =
            (v.y - v.t) ^ 2 * (dt * (v.t - v.x)) := by ring
          rw [h3] at this
          exact pos_of_mul_pos_right this (sq_nonneg _)
        have h4 : (dt * (v.t - v.x)) * (v.dx * (v.t - v.x)) < 0 := mul_neg_of_pos_of_neg h2 hneg
        have h5 : (dt * (v.t - v.x)) * (v.dx * (v.t - v.x)) = (dt * v.dx) * (v.t - v.x) ^ 2 := by ring
        rw [h5] at h4
        exact absurd h4 (not_lt.2 (mul_nonneg hsg (sq_nonneg _)))

/-- A step is permitted if it is within the bounds or zero. -/
def Permitted (p : Par K) (t : K) : Prop := t = 0 ∨ p.minStep ≤ t ∧ t ≤ p.maxStep

omit [IsStrictOrderedRing K] in
theorem mtClip_permitted (p : Par K) (v : Interval K) (count : Nat) (uinfo : Int) (stmin stmax : K)
    (hmax : p.minStep ≤ p.maxStep) (hx : Permitted p v.x) :
    Permitted p (mtClip p v count uinfo stmin stmax) := by
  unfold mtClip
  dsimp only
  have h1 : p.minStep ≤ (if p.maxStep < (if v.t < p.minStep then p.minStep else v.t) then p.maxStep
      else (if v.t < p.minStep then p.minStep else v.t)) ∧
      (if p.maxStep < (if v.t < p.minStep then p.minStep else v.t) then p.maxStep
      else (if v.t < p.minStep then p.minStep else v.t)) ≤ p.maxStep := by
    split_ifs with a b b
    · exact ⟨hmax, le_refl _⟩
    · exact ⟨le_refl _, hmax⟩
    · exact ⟨hmax, le_refl _⟩
    · exact ⟨not_lt.1 a, not_lt.1 b⟩
  generalize (if p.maxStep < (if v.t < p.minStep then p.minStep else v.t) then p.maxStep
      else (if v.t < p.minStep then p.minStep else v.t)) = s at h1 ⊢
  split_ifs
  · exact hx
  · exact .inr h1

theorem mtLoop_permitted (env : Env n σ K) (p : Par K) (xp s : Fin n → K) (finit dginit : K)
    (hmax : p.minStep ≤ p.maxStep) :
    ∀ (rem count : Nat) (v : Interval K) (stage1 : Bool) (width prevWidth : K) (uinfo : Int)
      (tr : List (Fin n → K)), Permitted p v.x →
      (∀ y ∈ tr, ∃ t, Permitted p t ∧ ∀ i, y i = xp i + t * s i) →
      ∀ y ∈ (mtLoop env p xp s finit dginit rem count v stage1 width prevWidth uinfo tr).trials,
        ∃ t, Permitted p t ∧ ∀ i, y i = xp i + t * s i := by
  intro rem
  induction rem with
  | zero => intro count v stage1 width prevWidth uinfo tr _ h; exact h
  | succ rem ih =>
    intro count v stage1 width prevWidth uinfo tr hx htr
    simp only [mtLoop]
    generalize mtBounds v = sb
    obtain ⟨stmin, stmax⟩ := sb
    dsimp only
    have hs := mtClip_permitted p v count uinfo stmin stmax hmax hx
    generalize mtClip p v count uinfo stmin stmax = stp at hs ⊢
    have htr' : ∀ y ∈ vecadd xp s stp :: tr, ∃ t, Permitted p t ∧ ∀ i, y i = xp i + t * s i := by
      intro y hy
      rcases List.mem_cons.1 hy with rfl | hy
      · exact ⟨stp, hs, fun _ => rfl⟩
      · exact htr y hy
    generalize hst : (if stage1 = true ∧ (env.eval (vecadd xp s stp)).1 ≤ finit + stp * (p.ftol * dginit) ∧
      min2 p.ftol p.gtol * dginit ≤ vecdot (env.eval (vecadd xp s stp)).2 s then false else stage1) = st
    have hux := mtInterval_x env.sqrt { v with t := stp } st (finit + stp * (p.ftol * dginit))
      (p.ftol * dginit) (env.eval (vecadd xp s stp)).1 (vecdot (env.eval (vecadd xp s stp)).2 s) stmin stmax
    generalize mtInterval env.sqrt { v with t := stp } st (finit + stp * (p.ftol * dginit))
      (p.ftol * dginit) (env.eval (vecadd xp s stp)).1 (vecdot (env.eval (vecadd xp s stp)).2 s) stmin stmax
      = u at hux ⊢
    have hx' : Permitted p (mtShrink u.2 prevWidth).x := by
      rw [mtShrink_x]
      rcases hux with h | h <;> rw [h]
      · exact hx
      · exact hs
    split_ifs <;> first | exact htr' | exact ih _ _ _ _ _ _ _ hx' htr'

/-- The inequalities behind the cubic interpolation. -/
theorem cubic_core {A B T G : ℝ} (hA : A < 0) (hG : 0 ≤ G) (h2 : G ^ 2 = T ^ 2 - A * B)
    (h : T ≤ A + B ∨ 0 < B) : 0 < 2 * G - A + B ∧ 0 < G - A + T ∧ T < G + B := by
  have hq : 0 < 2 * G - A + B := by
    rcases lt_or_ge B 0 with hB | hB
    · have hT : T ≤ A + B := by
        rcases h with h | h
        · exact h
        · exact absurd h (not_lt.2 hB.le)
      have hT2 : (A + B) ^ 2 ≤ T ^ 2 := by nlinarith
      by_contra hc
      rw [not_lt] at hc
      have h3 : 2 * G ≤ A - B := by linarith
      have h4 : (2 * G) ^ 2 ≤ (A - B) ^ 2 := by
        apply pow_le_pow_left₀ (by linarith) h3
      nlinarith [mul_pos_of_neg_of_neg hA hB, sq_nonneg (A + B), mul_pos_of_neg_of_neg hA hA]
    · linarith
  refine ⟨hq, ?_, ?_⟩
  · rcases le_or_gt 0 T with hT | hT
    · linarith
    · by_contra hc
      rw [not_lt] at hc
      have h3 : G - A ≤ -T := by linarith
      have h4 : (G - A) ^ 2 ≤ (-T) ^ 2 := pow_le_pow_left₀ (by linarith) h3 2
      have h5 : 0 < -A * (2 * G - A + B) := mul_pos (by linarith) hq
      nlinarith
  · rcases h with h | h
    · linarith
    · by_contra hc
      rw [not_lt] at hc
      have h4 : (G + B) ^ 2 ≤ T ^ 2 := pow_le_pow_left₀ (by linarith) hc 2
      have h5 : 0 < -A * B := mul_pos (by linarith) h
      nlinarith [mul_nonneg hG h.le]

/-- The root of the interpolating cubic's derivative the code computes; `m` is minus its `theta`. -/
theorem cubic_root (a b c u D g p q m : ℝ) (hq : q ≠ 0)
    (hm : m = 3 * a * u * (u + D) + b * (u + (u + D)) + c)
    (hg : g ^ 2 = m ^ 2 - cubic' a b c u * cubic' a b c (u + D))
    (hp : p = g - cubic' a b c u - m)
    (hq' : q = g - cubic' a b c u + g + cubic' a b c (u + D)) :
    cubic' a b c (u + p / q * D) = 0 ∧ cubic'' a b (u + p / q * D) * D = 2 * g := by
  have hr : p / q * q = p := div_mul_cancel₀ _ hq
  generalize p / q = r at hr
  have e1 : q * q ≠ 0 := mul_ne_zero hq hq
  have e2 : cubic' a b c (u + r * D) =
      (cubic' a b c u + cubic' a b c (u + D) - 2 * m) * r ^ 2 - 2 * (cubic' a b c u - m) * r +
        cubic' a b c u := by
    rw [hm]; unfold cubic'; ring
  have e3 : cubic'' a b (u + r * D) * D =
      2 * (cubic' a b c u + cubic' a b c (u + D) - 2 * m) * r - 2 * (cubic' a b c u - m) := by
    rw [hm]; unfold cubic' cubic''; ring
  rw [e2, e3]
  generalize cubic' a b c u = du at *
  generalize cubic' a b c (u + D) = dv at *
  constructor
  · apply mul_left_cancel₀ e1
    rw [mul_zero]
    have : q * q * ((du + dv - 2 * m) * r ^ 2 - 2 * (du - m) * r + du) =
        (du + dv - 2 * m) * p ^ 2 - 2 * (du - m) * p * q + du * q ^ 2 := by
      rw [← hr]; ring
    rw [this, hp, hq']
    linear_combination (du + dv + 2 * m) * hg
  · apply mul_left_cancel₀ hq
    have : q * (2 * (du + dv - 2 * m) * r - 2 * (du - m)) =
        2 * (du + dv - 2 * m) * p - 2 * (du - m) * q := by
      rw [← hr]; ring
    rw [this, hp, hq']
    linear_combination (-4) * hg

/-- The code's `gamma` up to its sign. -/
theorem gamma_sq (s theta du dv : ℝ) (hs : s ≠ 0) (h : 0 ≤ theta ^ 2 - du * dv) :
    (s * Real.sqrt (theta / s * (theta / s) - du / s * (dv / s))) ^ 2 = theta ^ 2 - du * dv := by
  have e : theta / s * (theta / s) - du / s * (dv / s) = (theta ^ 2 - du * dv) / s ^ 2 := by
    field_simp
  rw [e, mul_pow, Real.sq_sqrt (by positivity)]
  field_simp

theorem theta_eq (a b c e u v : ℝ) (h : u ≠ v) :
    (cubic a b c e u - cubic a b c e v) * const 3 1 / (v - u) + cubic' a b c u + cubic' a b c v =
      -(3 * a * u * (u + (v - u)) + b * (u + (u + (v - u))) + c) := by
  have h' : v - u ≠ 0 := sub_ne_zero.2 h.symm
  simp only [const, Nat.cast_ofNat, Nat.cast_one, div_one]
  field_simp
  unfold cubic cubic'
  ring

/-- The numbers the extrapolation computes: `g` is half the second derivative at the minimiser, scaled. -/
theorem cubicMinimizer2_eq (a b c e u v xmin xmax : ℝ) (huv : u ≠ v) :
    ∃ g m th : ℝ, m = 3 * a * v * (v + (u - v)) + b * (v + (v + (u - v))) + c ∧ 0 ≤ g * (u - v) ∧
      (0 ≤ m ^ 2 - cubic' a b c v * cubic' a b c u →
        g ^ 2 = m ^ 2 - cubic' a b c v * cubic' a b c u) ∧
      (g ≠ 0 → 0 ≤ m ^ 2 - cubic' a b c v * cubic' a b c u) ∧
      cubicMinimizer2 Real.sqrt u (cubic a b c e u) (cubic' a b c u) v (cubic a b c e v)
        (cubic' a b c v) xmin xmax =
      if (g - cubic' a b c v + -m) / (g - cubic' a b c v + g + cubic' a b c u) < 0 ∧ g ≠ 0 then
        v - (g - cubic' a b c v + -m) / (g - cubic' a b c v + g + cubic' a b c u) * (v - u)
      else if th < 0 then xmax else xmin := by
  have hθ := theta_eq a b c e u v huv
  simp only [cubicMinimizer2]
  rw [hθ, max2_eq, max2_eq, max2_eq, fabs_eq, fabs_eq, fabs_eq]
  generalize hm : 3 * a * u * (u + (v - u)) + b * (u + (u + (v - u))) + c = m
  have hm' : m = 3 * a * v * (v + (u - v)) + b * (v + (v + (u - v))) + c := by rw [← hm]; ring
  generalize cubic' a b c u = du
  generalize cubic' a b c v = dv
  generalize hs : max (max |-m| |du|) |dv| = s
  have hs0 : 0 ≤ s := by rw [← hs]; exact le_max_of_le_right (abs_nonneg _)
  have hsz : s = 0 → m = 0 ∧ du = 0 ∧ dv = 0 := by
    intro h
    rw [h] at hs
    have a1 : |dv| ≤ 0 := hs ▸ le_max_right _ _
    have a2 : |du| ≤ 0 := hs ▸ (le_max_right _ _).trans (le_max_left _ _)
    have a3 : |-m| ≤ 0 := hs ▸ (le_max_left _ _).trans (le_max_left _ _)
    exact ⟨neg_eq_zero.1 (abs_nonpos_iff.1 a3), abs_nonpos_iff.1 a2, abs_nonpos_iff.1 a1⟩
  have hγ0 : 0 ≤ s * Real.sqrt (max 0 (-m / s * (-m / s) - du / s * (dv / s))) :=
    mul_nonneg hs0 (Real.sqrt_nonneg _)
  have e : s ≠ 0 → -m / s * (-m / s) - du / s * (dv / s) = (m ^ 2 - dv * du) / s ^ 2 := by
    intro h; field_simp
  have hγ2 : 0 ≤ m ^ 2 - dv * du →
      (s * Real.sqrt (max 0 (-m / s * (-m / s) - du / s * (dv / s)))) ^ 2 = m ^ 2 - dv * du := by
    intro h
    by_cases h0 : s = 0
    · obtain ⟨a1, a2, a3⟩ := hsz h0
      rw [h0, a1, a2, a3]; simp
    · have h1 : 0 ≤ -m / s * (-m / s) - du / s * (dv / s) := by rw [e h0]; positivity
      rw [max_eq_right h1]
      have := gamma_sq s (-m) du dv h0 (by rw [neg_sq]; linarith)
      rw [this]; ring
  have hγ3 : s * Real.sqrt (max 0 (-m / s * (-m / s) - du / s * (dv / s))) ≠ 0 →
      0 ≤ m ^ 2 - dv * du := by
    intro h
    have h0 : s ≠ 0 := left_ne_zero_of_mul h
    by_contra hc
    rw [not_le] at hc
    have h1 : -m / s * (-m / s) - du / s * (dv / s) ≤ 0 := by
      rw [e h0]; exact div_nonpos_of_nonpos_of_nonneg hc.le (sq_nonneg _)
    rw [max_eq_left h1, Real.sqrt_zero, mul_zero] at h
    exact h rfl
  generalize s * Real.sqrt (max 0 (-m / s * (-m / s) - du / s * (dv / s))) = γ at *
  refine ⟨if u < v then -γ else γ, m, -m / s, hm', ?_, fun h => ?_, fun h => hγ3 ?_, ?_⟩
  · split_ifs with h
    · nlinarith
    · exact mul_nonneg hγ0 (sub_nonneg.2 (not_lt.1 h))
  · split_ifs
    · rw [neg_sq, hγ2 h]
    · exact hγ2 h
  · intro h0; apply h; rw [h0]; simp
  · simp only [feq_iff, ne_eq]

end Verif.Lbfgs
