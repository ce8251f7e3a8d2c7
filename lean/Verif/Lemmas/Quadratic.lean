import Mathlib.Tactic.FieldSimp
import Mathlib.Tactic.Linarith
import Mathlib.Tactic.LinearCombination
import Verif.Lemmas.MoreThuente
/-! The More-Thuente search on a function that is quadratic along the ray. -/
namespace Verif.Lbfgs
open Spec
variable {n : Nat} {σ K : Type} [Field K] [LinearOrder K] [IsStrictOrderedRing K]

/-- The scaled discriminant of a quadratic. -/
theorem quad_gamma (sqrt : K → K) (hs : ∀ z, 0 ≤ z → sqrt (z * z) = z) (du dv s : K) (hs0 : 0 < s) :
    s * sqrt (-(du + dv) / 2 / s * (-(du + dv) / 2 / s) - du / s * (dv / s)) = |du - dv| / 2 := by
  have e : -(du + dv) / 2 / s * (-(du + dv) / 2 / s) - du / s * (dv / s) =
      |du - dv| / (2 * s) * (|du - dv| / (2 * s)) := by
    have := abs_mul_abs_self (du - dv)
    field_simp
    nlinarith [this]
  rw [e, hs _ (by positivity)]
  field_simp

theorem quad_scale {u v du dv τ a : K} (ha : 0 < a) (huv : u ≠ v) (hdu : du = a * (u - τ))
    (hdv : dv = a * (v - τ)) (θ : K) : 0 < max (max |θ| |du|) |dv| := by
  by_contra h
  rw [not_lt] at h
  have a1 : |dv| ≤ 0 := (le_max_right _ _).trans h
  have a2 : |du| ≤ 0 := ((le_max_right _ _).trans (le_max_left _ _)).trans h
  rw [abs_nonpos_iff] at a1 a2
  apply huv
  rw [a1] at hdv
  rw [a2] at hdu
  have h1 : u - τ = 0 := by
    rcases mul_eq_zero.1 hdu.symm with h | h
    · exact absurd h ha.ne'
    · exact h
  have h2 : v - τ = 0 := by
    rcases mul_eq_zero.1 hdv.symm with h | h
    · exact absurd h ha.ne'
    · exact h
  linarith

theorem quad_theta {u v fu fv du dv τ a : K} (huv : u ≠ v) (hdu : du = a * (u - τ))
    (hdv : dv = a * (v - τ)) (hf : fu - fv = a / 2 * ((u - τ) ^ 2 - (v - τ) ^ 2)) :
    (fu - fv) * const 3 1 / (v - u) + du + dv = -(du + dv) / 2 := by
  have hD : v - u ≠ 0 := sub_ne_zero.2 huv.symm
  rw [hf, hdu, hdv]
  simp only [const, Nat.cast_ofNat, Nat.cast_one, div_one]
  field_simp
  ring

theorem quad_abs {u v du dv τ a : K} (ha : 0 < a) (hdu : du = a * (u - τ)) (hdv : dv = a * (v - τ)) :
    (u ≤ v → |du - dv| = dv - du) ∧ (v ≤ u → |du - dv| = du - dv) := by
  subst hdu hdv
  constructor <;> intro h
  · rw [abs_of_nonpos (by nlinarith [mul_nonneg ha.le (sub_nonneg.2 h)])]; ring
  · rw [abs_of_nonneg (by nlinarith [mul_nonneg ha.le (sub_nonneg.2 h)])]

theorem cubicMinimizer_quad {sqrt : K → K} (hs : ∀ z, 0 ≤ z → sqrt (z * z) = z) {u v fu fv du dv τ a : K}
    (ha : 0 < a) (huv : u ≠ v) (hdu : du = a * (u - τ)) (hdv : dv = a * (v - τ))
    (hf : fu - fv = a / 2 * ((u - τ) ^ 2 - (v - τ) ^ 2)) :
    cubicMinimizer sqrt u fu du v fv dv = τ := by
  have hD : v - u ≠ 0 := sub_ne_zero.2 huv.symm
  simp only [cubicMinimizer]
  rw [quad_theta huv hdu hdv hf, max2_eq, max2_eq, fabs_eq, fabs_eq, fabs_eq]
  rw [quad_gamma sqrt hs du dv _ (quad_scale ha huv hdu hdv _)]
  have hg : (if v < u then -(|du - dv| / 2) else |du - dv| / 2) = (dv - du) / 2 := by
    split_ifs with h
    · rw [(quad_abs ha hdu hdv).2 h.le]; ring
    · rw [(quad_abs ha hdu hdv).1 (not_lt.1 h)]
  rw [hg]
  have hdd : dv - du = a * (v - u) := by rw [hdu, hdv]; ring
  have hdd0 : dv - du ≠ 0 := by rw [hdd]; exact mul_ne_zero ha.ne' hD
  have e1 : (dv - du) / 2 - du + -(du + dv) / 2 = -(2 * du) := by ring
  have e2 : (dv - du) / 2 - du + (dv - du) / 2 + dv = 2 * (dv - du) := by ring
  rw [e1, e2, hdd, hdu]
  field_simp
  ring

theorem quardMinimizer_quad {u v fu fv du τ a : K} (ha : 0 < a) (huv : u ≠ v) (hdu : du = a * (u - τ))
    (hf : fu - fv = a / 2 * ((u - τ) ^ 2 - (v - τ) ^ 2)) :
    quardMinimizer u fu du v fv = τ := by
  have hD : v - u ≠ 0 := sub_ne_zero.2 huv.symm
  simp only [quardMinimizer]
  have e : (fu - fv) / (v - u) + du = -(a * (v - u) / 2) := by
    rw [hf, hdu]; field_simp; ring
  rw [e, hdu]
  simp only [const, Nat.cast_ofNat, Nat.cast_one, div_one]
  field_simp
  ring

omit [IsStrictOrderedRing K] in
theorem quardMinimizer2_quad {u v du dv τ a : K} (ha : 0 < a) (huv : u ≠ v) (hdu : du = a * (u - τ))
    (hdv : dv = a * (v - τ)) : quardMinimizer2 u du v dv = τ := by
  have hD : v - u ≠ 0 := sub_ne_zero.2 huv.symm
  have hdd : dv - du = a * (v - u) := by rw [hdu, hdv]; ring
  unfold quardMinimizer2
  rw [hdd, hdv]
  field_simp
  ring

/-- Extrapolation, when the minimiser lies beyond `v`. -/
theorem cubicMinimizer2_quad {sqrt : K → K} (hs : ∀ z, 0 ≤ z → sqrt (z * z) = z) {u v fu fv du dv τ a : K}
    (ha : 0 < a) (huv : u < v) (hv : v < τ) (hdu : du = a * (u - τ)) (hdv : dv = a * (v - τ))
    (hf : fu - fv = a / 2 * ((u - τ) ^ 2 - (v - τ) ^ 2)) (xmin xmax : K) :
    cubicMinimizer2 sqrt u fu du v fv dv xmin xmax = τ := by
  have hD : v - u ≠ 0 := (sub_pos.2 huv).ne'
  simp only [cubicMinimizer2]
  rw [quad_theta huv.ne hdu hdv hf, max2_eq, max2_eq, max2_eq, fabs_eq, fabs_eq, fabs_eq]
  have hsc := quad_scale ha huv.ne hdu hdv (-(du + dv) / 2)
  generalize max (max |-(du + dv) / 2| |du|) |dv| = s at hsc ⊢
  have hpos : 0 ≤ -(du + dv) / 2 / s * (-(du + dv) / 2 / s) - du / s * (dv / s) := by
    have : -(du + dv) / 2 / s * (-(du + dv) / 2 / s) - du / s * (dv / s) =
      ((du - dv) / (2 * s)) ^ 2 := by field_simp; ring
    rw [this]; positivity
  rw [max_eq_right hpos, quad_gamma sqrt hs du dv _ hsc, if_pos huv, (quad_abs ha hdu hdv).1 huv.le]
  have hdd : dv - du = a * (v - u) := by rw [hdu, hdv]; ring
  have hdd0 : 0 < dv - du := by rw [hdd]; exact mul_pos ha (sub_pos.2 huv)
  have e1 : -((dv - du) / 2) - dv + -(du + dv) / 2 = -(2 * dv) := by ring
  have e2 : -((dv - du) / 2) - dv + -((dv - du) / 2) + du = -(2 * (dv - du)) := by ring
  have e3 : -(2 * dv) / -(2 * (dv - du)) = dv / (dv - du) := by
    rw [neg_div_neg_eq]; field_simp
  rw [e1, e2, e3]
  have hdv0 : dv < 0 := by rw [hdv]; exact mul_neg_of_pos_of_neg ha (sub_neg.2 hv)
  rw [if_pos ⟨div_neg_of_neg_of_pos hdv0 hdd0, by rw [feq_iff]; intro h; linarith⟩]
  rw [hdd, hdv]
  field_simp
  ring

/-- One update on a quadratic with minimiser `τ`, when no minimiser is bracketed yet and the trial is
    beyond it: a bracket, and the next trial is the minimiser. -/
theorem updateTrial_beyond {sqrt : K → K} (hs : ∀ z, 0 ≤ z → sqrt (z * z) = z) {v : Interval K}
    {ft dt τ a tmax : K} (ha : 0 < a) (hb : v.brackt = false) (hx : v.x < τ) (ht : τ < v.t)
    (hdx : v.dx = a * (v.x - τ)) (hdt : dt = a * (v.t - τ))
    (hf : v.fx - ft = a / 2 * ((v.x - τ) ^ 2 - (v.t - τ) ^ 2)) (hm : v.t ≤ tmax) :
    ∃ w, updateTrial sqrt v ft dt v.x tmax = (0, w) ∧ w.brackt = true ∧ w.t = τ ∧
      ((w.x = v.x ∧ w.y = v.t) ∨ (w.x = v.t ∧ w.y = v.x)) := by
  have hxt : v.x ≠ v.t := (hx.trans ht).ne
  have hdx0 : v.dx < 0 := by rw [hdx]; exact mul_neg_of_pos_of_neg ha (sub_neg.2 hx)
  have hdt0 : 0 < dt := by rw [hdt]; exact mul_pos ha (sub_pos.2 ht)
  unfold updateTrial
  rw [if_neg (by simp [hb]), if_neg (by simp [hb]), if_neg (by simp [hb])]
  have hmc := cubicMinimizer_quad hs ha hxt hdx hdt hf
  have hmq := quardMinimizer_quad ha hxt hdx hf
  have hmq2 := quardMinimizer2_quad ha hxt hdx hdt
  by_cases hc : v.fx < ft
  · have hsel : trialValue sqrt v ft dt v.x tmax = (τ, true, true) := by
      unfold trialValue
      dsimp only
      rw [if_pos hc, hmc, hmq, if_neg (lt_irrefl _)]
      simp
    refine ⟨_, rfl, ?_, ?_, ?_⟩
    · rw [hsel]
    · rw [hsel]
      have hw : newInterval v ft dt = { v with y := v.t, fy := ft, dy := dt } := by
        unfold newInterval; rw [if_pos hc]
      rw [hw]
      unfold clipTrial
      dsimp only
      have hc66 : (const 66 100 : K) = 66 / 100 := by simp [const]
      rw [if_neg (not_lt.2 (ht.le.trans hm)), if_neg (not_lt.2 hx.le), if_pos ⟨rfl, rfl⟩,
        if_pos (hx.trans ht), hc66, if_neg]
      rw [not_lt]
      -- the minimiser lies in the first half
      have h1 : (v.x - τ) ^ 2 < (v.t - τ) ^ 2 := by
        by_contra h
        rw [not_lt] at h
        have : 0 ≤ a / 2 * ((v.x - τ) ^ 2 - (v.t - τ) ^ 2) :=
          mul_nonneg (by positivity) (sub_nonneg.2 h)
        linarith
      have h2 : τ - v.x < v.t - τ := by
        by_contra h
        rw [not_lt] at h
        nlinarith
      linarith
    · left
      have hw : newInterval v ft dt = { v with y := v.t, fy := ft, dy := dt } := by
        unfold newInterval; rw [if_pos hc]
      rw [hw]
      exact ⟨rfl, rfl⟩
  · have hsd : signDiff dt v.dx := (signDiff_iff hdx0.ne).2 (mul_neg_of_pos_of_neg hdt0 hdx0)
    have hsel : trialValue sqrt v ft dt v.x tmax = (τ, false, true) := by
      unfold trialValue
      dsimp only
      rw [if_neg hc, if_pos hsd, hmc, hmq2, if_neg (lt_irrefl _)]
    have hw : newInterval v ft dt =
        { v with y := v.x, fy := v.fx, dy := v.dx, x := v.t, fx := ft, dx := dt } := by
      unfold newInterval; rw [if_neg hc, if_pos hsd]
    refine ⟨_, rfl, ?_, ?_, ?_⟩
    · rw [hsel]
    · rw [hsel, hw]
      unfold clipTrial
      dsimp only
      rw [if_neg (not_lt.2 (ht.le.trans hm)), if_neg (not_lt.2 hx.le), if_neg (by simp)]
    · right
      rw [hw]
      exact ⟨rfl, rfl⟩

/-- One update when the trial is before the minimiser: the best end moves to the trial, and the next trial
    is the minimiser or, if that is too far, the largest permitted one. -/
theorem updateTrial_before {sqrt : K → K} (hs : ∀ z, 0 ≤ z → sqrt (z * z) = z) {v : Interval K}
    {ft dt τ a tmax : K} (ha : 0 < a) (hb : v.brackt = false) (hx : v.x < v.t) (ht : v.t < τ)
    (hdx : v.dx = a * (v.x - τ)) (hdt : dt = a * (v.t - τ))
    (hf : v.fx - ft = a / 2 * ((v.x - τ) ^ 2 - (v.t - τ) ^ 2)) (hm : v.t ≤ tmax) :
    updateTrial sqrt v ft dt v.x tmax =
      (0, { v with x := v.t, fx := ft, dx := dt, t := min τ tmax, brackt := false }) := by
  have hdx0 : v.dx < 0 := by rw [hdx]; exact mul_neg_of_pos_of_neg ha (sub_neg.2 (hx.trans ht))
  have hdt0 : dt < 0 := by rw [hdt]; exact mul_neg_of_pos_of_neg ha (sub_neg.2 ht)
  have hff : ¬ v.fx < ft := by
    rw [not_lt]
    have : (v.t - τ) ^ 2 ≤ (v.x - τ) ^ 2 := by nlinarith
    have : 0 ≤ a / 2 * ((v.x - τ) ^ 2 - (v.t - τ) ^ 2) := mul_nonneg (by positivity) (sub_nonneg.2 this)
    linarith
  have hsd : ¬ signDiff dt v.dx := by
    rw [signDiff_iff hdx0.ne, not_lt]; exact (mul_pos_of_neg_of_neg hdt0 hdx0).le
  have hab : fabs dt < fabs v.dx := by
    rw [fabs_eq, fabs_eq, abs_of_neg hdt0, abs_of_neg hdx0, hdt, hdx]
    nlinarith
  have hsel : trialValue sqrt v ft dt v.x tmax = (τ, true, false) := by
    unfold trialValue
    dsimp only
    rw [if_neg hff, if_neg hsd, if_pos hab, cubicMinimizer2_quad hs ha hx ht hdx hdt hf,
      quardMinimizer2_quad ha hx.ne hdx hdt, hb]
    simp
  unfold updateTrial
  rw [if_neg (by simp [hb]), if_neg (by simp [hb]), if_neg (by simp [hb]), hsel]
  have hw : newInterval v ft dt = { v with x := v.t, fx := ft, dx := dt } := by
    unfold newInterval; rw [if_neg hff, if_neg hsd]
  rw [hw]
  have hclip : clipTrial { v with x := v.t, fx := ft, dx := dt } (τ, true, false) v.x tmax = min τ tmax := by
    unfold clipTrial
    dsimp only
    rw [if_neg (c := (false = true ∧ true = true)) (by simp)]
    by_cases h : tmax < τ
    · rw [if_pos h, if_neg (not_lt.2 (hx.le.trans hm)), min_eq_right h.le]
    · rw [if_neg h, if_neg (not_lt.2 (hx.trans ht).le), min_eq_left (not_lt.1 h)]
  dsimp only
  rw [hclip]

/-- Along the ray the objective is `f - a T t + a t² / 2`, with minimiser `T`. -/
structure QuadRay (env : Env n σ K) (x s : Fin n → K) (f a T : K) : Prop where
  value : ∀ t, (env.eval (vecadd x s t)).1 = f - a * T * t + a / 2 * t ^ 2
  slope : ∀ t, vecdot (env.eval (vecadd x s t)).2 s = a * (t - T)

/-- The requirements on the parameters. -/
structure QuadPar (p : Par K) : Prop where
  ftol : 0 ≤ p.ftol ∧ p.ftol ≤ 1 / 2 ∧ p.ftol ≤ p.gtol
  gtol : p.gtol < 1
  xtol : p.xtol ≤ 3 / 4

theorem quad_sufficient {f a T t c : K} (ha : 0 < a) (hT : 0 < T) (hc : 0 ≤ c ∧ c ≤ 1 / 2) (h0 : 0 ≤ t)
    (ht : t ≤ T) : f - a * T * t + a / 2 * t ^ 2 ≤ f + t * (c * -(a * T)) := by
  have : 0 ≤ t * (a * ((1 - c) * T - t / 2)) := by
    refine mul_nonneg h0 (mul_nonneg ha.le ?_)
    have : 1 / 2 * T ≤ (1 - c) * T := mul_le_mul_of_nonneg_right (by linarith) hT.le
    linarith
  nlinarith

/-- A trial close to the minimiser is accepted. -/
theorem mtLoop_accept {env : Env n σ K} {p : Par K} {xp s : Fin n → K} {f a T : K} (hp : QuadPar p)
    (hq : QuadRay env xp s f a T) (ha : 0 < a) (hT : 0 < T) (rem count : Nat) (v : Interval K)
    (stage1 : Bool) (width prevWidth : K) (tr : List (Fin n → K)) (hm : p.minStep < v.t)
    (h0 : 0 ≤ v.t) (hM : v.t < p.maxStep) (h1 : (1 - p.ftol) * T ≤ v.t) (h2 : v.t ≤ T)
    (hc : (count : Int) + 1 < p.maxLinesearch)
    (hb : v.brackt = true → min v.x v.y < v.t ∧ v.t < max v.x v.y ∧
      p.xtol * max v.x v.y < max v.x v.y - min v.x v.y) :
    let r := mtLoop env p xp s f (-(a * T)) (rem + 1) count v stage1 width prevWidth 0 tr
    r.ret = count + 1 ∧ r.step = v.t ∧ r.x = vecadd xp s v.t ∧ r.trials = vecadd xp s v.t :: tr := by
  dsimp only
  have hclip : mtClip p v count 0 (mtBounds v).1 (mtBounds v).2 = v.t := by
    unfold mtClip
    dsimp only
    rw [if_neg (not_lt.2 hm.le), if_neg (not_lt.2 hM.le), if_neg]
    rintro (⟨hbr, (h | h) | h | h⟩ | ⟨hbr, h⟩)
    · obtain ⟨b1, b2, b3⟩ := hb hbr
      rw [mtBounds, if_pos hbr, min2_eq] at h
      exact absurd b1 (not_lt.2 h)
    · obtain ⟨b1, b2, b3⟩ := hb hbr
      rw [mtBounds, if_pos hbr, max2_eq] at h
      exact absurd b2 (not_lt.2 h)
    · omega
    · exact h rfl
    · obtain ⟨b1, b2, b3⟩ := hb hbr
      rw [mtBounds, if_pos hbr, max2_eq, min2_eq] at h
      exact absurd b3 (not_lt.2 h)
  have hv := hq.value v.t
  have hd := hq.slope v.t
  have hsuf := quad_sufficient (f := f) ha hT ⟨hp.ftol.1, hp.ftol.2.1⟩ h0 h2
  have hcur : |a * (v.t - T)| ≤ p.gtol * (- -(a * T)) := by
    rw [abs_of_nonpos (mul_nonpos_of_nonneg_of_nonpos ha.le (by linarith))]
    have h3 : T - v.t ≤ p.gtol * T := by
      have := mul_le_mul_of_nonneg_right hp.ftol.2.2 hT.le
      linarith
    have := mul_le_mul_of_nonneg_left h3 ha.le
    nlinarith
  unfold mtLoop
  dsimp only
  rw [hclip, hv, hd, fabs_eq]
  rw [if_neg, if_neg, if_neg, if_neg, if_neg (by omega), if_pos ⟨hsuf, hcur⟩]
  · exact ⟨rfl, rfl, rfl, rfl⟩
  · rintro ⟨hbr, h⟩
    obtain ⟨b1, b2, b3⟩ := hb hbr
    rw [mtBounds, if_pos hbr, max2_eq, min2_eq] at h
    exact absurd b3 (not_lt.2 h)
  · rintro ⟨h, -⟩
    exact hm.ne' (feq_iff.1 h)
  · rintro ⟨h, -⟩
    exact hM.ne (feq_iff.1 h)
  · rintro ⟨hbr, (h | h) | h⟩
    · obtain ⟨b1, b2, b3⟩ := hb hbr
      rw [mtBounds, if_pos hbr, min2_eq] at h
      exact absurd b1 (not_lt.2 h)
    · obtain ⟨b1, b2, b3⟩ := hb hbr
      rw [mtBounds, if_pos hbr, max2_eq] at h
      exact absurd b2 (not_lt.2 h)
    · exact h rfl

/-- The steps of the expansion: 0, `t`, `5 t`, `21 t`, ... -/
def expand (t : K) (j : Nat) : K := t * ((4 ^ j - 1) / 3)

theorem expand_next (t : K) (j : Nat) :
    expand t (j + 1) + const 4 1 * (expand t (j + 1) - expand t j) = expand t (j + 2) := by
  simp only [expand, const, Nat.cast_ofNat, Nat.cast_one, div_one]
  ring

theorem expand_lt {t : K} (ht : 0 < t) {i j : Nat} (h : i < j) : expand t i < expand t j := by
  have : (4 : K) ^ i < 4 ^ j := pow_lt_pow_right₀ (by norm_num) h
  exact mul_lt_mul_of_pos_left (by linarith) ht

theorem expand_le {t : K} (ht : 0 < t) {i j : Nat} (h : i ≤ j) : expand t i ≤ expand t j := by
  rcases h.lt_or_eq with h | rfl
  · exact (expand_lt ht h).le
  · exact le_refl _

theorem expand_nonneg {t : K} (ht : 0 < t) (j : Nat) : 0 ≤ expand t j := by
  have := expand_le ht (Nat.zero_le j)
  simpa [expand] using this

theorem expand_width {t : K} (ht : 0 < t) (j : Nat) :
    3 / 4 * expand t (j + 1) < expand t (j + 1) - expand t j := by
  have h4 : (0 : K) < 4 ^ j := by positivity
  have : expand t (j + 1) - expand t j - 3 / 4 * expand t (j + 1) = t * (1 / 4) := by
    unfold expand; ring
  have : 0 < t * (1 / 4) := by positivity
  linarith

/-- The outcome of the search after `j` trials have been made. -/
structure QuadOut (p : Par K) (xp s : Fin n → K) (T stp : K) (k j : Nat) (tr : List (Fin n → K))
    (r : LsOut n K) : Prop where
  ret : (j : Int) < r.ret ∧ r.ret ≤ k + 2
  len : (r.trials.length : Int) = tr.length + (r.ret - j)
  point : r.x = vecadd xp s r.step
  step : r.step = T ∨ r.step = (1 - p.ftol) * T ∨ ∃ i : Nat, r.ret = i + 1 ∧ r.step = expand stp (i + 1)

theorem mtLoop_quad {env : Env n σ K} {p : Par K} {xp s : Fin n → K} {f a T stp : K} (hp : QuadPar p)
    (hsq : ∀ z, 0 ≤ z → env.sqrt (z * z) = z) (hq : QuadRay env xp s f a T) (ha : 0 < a) (hT : 0 < T)
    (hmin : 0 < p.minStep ∧ p.minStep < stp ∧ p.minStep < (1 - p.ftol) * T) (k : Nat)
    (hk : T ≤ expand stp (k + 1)) (hmax : expand stp (k + 1) + p.minStep ≤ p.maxStep)
    (hls : (k : Int) + 2 < p.maxLinesearch) (prevWidth width : K)
    (hw : expand stp (k + 1) < 66 / 100 * prevWidth) :
    ∀ (m j : Nat) (v : Interval K) (stage1 : Bool) (tr : List (Fin n → K)) (rem : Nat),
      j + m = k → 2 ≤ rem + j → rem = p.maxLinesearch.toNat - j →
      v.x = expand stp j → v.t = expand stp (j + 1) →
      v.fx = f - a * T * v.x + a / 2 * v.x ^ 2 → v.dx = a * (v.x - T) → v.brackt = false →
      v.x < (1 - p.gtol) * T →
      QuadOut p xp s T stp k j tr
        (mtLoop env p xp s f (-(a * T)) rem j v stage1 width prevWidth 0 tr) := by
  have hstp : 0 < stp := hmin.1.trans hmin.2.1
  obtain ⟨hf0, hf1, hfg⟩ := hp.ftol
  intro m
  induction m using Nat.strong_induction_on with
  | _ m ih =>
  intro j v stage1 tr rem hjm hrem hremeq hx ht hfx hdx hb hxg
  obtain ⟨rem, rfl⟩ : ∃ r, rem = r + 1 := ⟨rem - 1, by omega⟩
  have htk : v.t ≤ expand stp (k + 1) := ht ▸ expand_le hstp (by omega)
  have hxt : v.x < v.t := by rw [hx, ht]; exact expand_lt hstp (by omega)
  have hx0 : 0 ≤ v.x := hx ▸ expand_nonneg hstp j
  have ht0 : 0 < v.t := lt_of_le_of_lt hx0 hxt
  have htmin : p.minStep < v.t := by
    have : expand stp 1 ≤ expand stp (j + 1) := expand_le hstp (by omega)
    have e1 : expand stp 1 = stp := by unfold expand; norm_num
    rw [ht]; linarith [hmin.2.1]
  have htmax : v.t < p.maxStep := by linarith [hmin.1]
  have hxT : v.x < T := by
    have : (1 - p.gtol) * T ≤ 1 * T := mul_le_mul_of_nonneg_right (by linarith) hT.le
    linarith
  have hbd : mtBounds v = (v.x, expand stp (j + 2)) := by
    unfold mtBounds
    rw [hb, ← expand_next, ← ht, ← hx]; rfl
  have hclip : mtClip p v j 0 v.x (expand stp (j + 2)) = v.t := by
    unfold mtClip
    dsimp only
    rw [if_neg (not_lt.2 htmin.le), if_neg (not_lt.2 htmax.le), if_neg (by simp [hb])]
  have hm2 : v.t ≤ expand stp (j + 2) := ht ▸ expand_le hstp (by omega)
  have hval := hq.value v.t
  have hslo := hq.slope v.t
  have hfdiff : ∀ τ, v.fx - (f - a * T * v.t + a / 2 * v.t ^ 2) - (v.x - v.t) * (a * (τ - T)) =
      a / 2 * ((v.x - τ) ^ 2 - (v.t - τ) ^ 2) := by
    intro τ; rw [hfx]; ring
  unfold mtLoop
  dsimp only
  rw [hbd]
  dsimp only
  rw [hclip, hval, hslo, fabs_eq]
  rw [if_neg (by simp [hb]), if_neg (fun h => htmax.ne (feq_iff.1 h.1)),
    if_neg (fun h => htmin.ne' (feq_iff.1 h.1)), if_neg (by simp [hb]), if_neg (by omega)]
  by_cases hacc : f - a * T * v.t + a / 2 * v.t ^ 2 ≤ f + v.t * (p.ftol * -(a * T)) ∧
      |a * (v.t - T)| ≤ p.gtol * - -(a * T)
  · rw [if_pos hacc]
    exact ⟨⟨by simp, by simp; omega⟩, by simp, rfl, .inr (.inr ⟨j, rfl, ht⟩)⟩
  · rw [if_neg hacc]
    have hvt : ({ v with t := v.t } : Interval K) = v := rfl
    rcases lt_trichotomy v.t T with hlt | heq | hgt
    · -- before the minimiser
      have hsuf := quad_sufficient (f := f) ha hT ⟨hf0, hf1⟩ ht0.le hlt.le
      have hint : mtInterval env.sqrt v
          (if stage1 = true ∧ f - a * T * v.t + a / 2 * v.t ^ 2 ≤ f + v.t * (p.ftol * -(a * T)) ∧
            min2 p.ftol p.gtol * -(a * T) ≤ a * (v.t - T) then false else stage1)
          (f + v.t * (p.ftol * -(a * T))) (p.ftol * -(a * T)) (f - a * T * v.t + a / 2 * v.t ^ 2)
          (a * (v.t - T)) v.x (expand stp (j + 2)) =
          (0, { v with x := v.t, fx := f - a * T * v.t + a / 2 * v.t ^ 2, dx := a * (v.t - T),
                       t := min T (expand stp (j + 2)), brackt := false }) := by
        unfold mtInterval
        rw [if_neg (fun h => absurd h.2.1 (not_lt.2 hsuf))]
        exact updateTrial_before hsq ha hb hxt hlt hdx rfl (by have := hfdiff T; linarith) hm2
      rw [hint]
      generalize (if stage1 = true ∧ f - a * T * v.t + a / 2 * v.t ^ 2 ≤ f + v.t * (p.ftol * -(a * T)) ∧
            min2 p.ftol p.gtol * -(a * T) ≤ a * (v.t - T) then false else stage1) = st
      have hshrink : ∀ w : Interval K, w.brackt = false → mtShrink w prevWidth = w := by
        intro w hw; unfold mtShrink; rw [if_neg (by simp [hw])]
      rw [hshrink _ rfl]
      dsimp only
      rw [if_neg Bool.false_ne_true, if_neg Bool.false_ne_true]
      have hjk : j < k := by
        by_contra h
        have : j = k := by omega
        rw [this] at ht
        rw [ht] at hlt
        exact absurd hlt (not_lt.2 hk)
      have hxg' : v.t < (1 - p.gtol) * T := by
        by_contra h
        rw [not_lt] at h
        refine hacc ⟨hsuf, ?_⟩
        rw [abs_of_nonpos (mul_nonpos_of_nonneg_of_nonpos ha.le (by linarith))]
        have := mul_le_mul_of_nonneg_left h ha.le
        nlinarith
      rcases le_or_gt (expand stp (j + 2)) T with hle | hgt'
      · have := ih (m - 1) (by omega) (j + 1) ⟨v.t, f - a * T * v.t + a / 2 * v.t ^ 2, a * (v.t - T), v.y,
            v.fy, v.dy, min T (expand stp (j + 2)), false⟩ st
          (vecadd xp s v.t :: tr) rem (by omega) (by omega) (by omega) ht (min_eq_right hle) rfl rfl rfl hxg'
        refine ⟨⟨?_, this.ret.2⟩, ?_, this.point, this.step⟩
        · have := this.ret.1; push_cast at this; omega
        · have := this.len; simp only [List.length_cons] at this; push_cast at this; omega
      · obtain ⟨rem, rfl⟩ : ∃ r, rem = r + 1 := ⟨rem - 1, by omega⟩
        have := mtLoop_accept hp hq ha hT rem (j + 1) ⟨v.t,
            f - a * T * v.t + a / 2 * v.t ^ 2, a * (v.t - T), v.y, v.fy, v.dy, min T (expand stp (j + 2)),
            false⟩ st width prevWidth
          (vecadd xp s v.t :: tr)
        dsimp only at this
        rw [min_eq_left hgt'.le] at this ⊢
        obtain ⟨r1, r2, r3, r4⟩ := this (by linarith [hmin.2.2, mul_nonneg hf0 hT.le]) hT.le
          (by linarith [hmin.1]) (by linarith [mul_nonneg hf0 hT.le]) le_rfl (by push_cast; omega)
          (by intro h; cases h)
        refine ⟨⟨?_, ?_⟩, ?_, ?_, .inl r2⟩
        · rw [r1]; push_cast; omega
        · rw [r1]; push_cast; omega
        · rw [r4, r1]; simp; omega
        · rw [r3, r2]
    · -- at the minimiser the trial would have been accepted
      refine absurd ⟨quad_sufficient (f := f) ha hT ⟨hf0, hf1⟩ ht0.le heq.le, ?_⟩ hacc
      rw [heq, sub_self, mul_zero, abs_zero]
      have : 0 ≤ p.gtol * (a * T) := mul_nonneg (hf0.trans hfg) (mul_pos ha hT).le
      linarith
    · -- beyond the minimiser
      generalize hst : (if stage1 = true ∧ f - a * T * v.t + a / 2 * v.t ^ 2 ≤
            f + v.t * (p.ftol * -(a * T)) ∧
            min2 p.ftol p.gtol * -(a * T) ≤ a * (v.t - T) then false else stage1) = st
      have key : ∃ (τ : K) (w : Interval K), (τ = T ∨ τ = (1 - p.ftol) * T) ∧
          mtInterval env.sqrt v st (f + v.t * (p.ftol * -(a * T))) (p.ftol * -(a * T))
            (f - a * T * v.t + a / 2 * v.t ^ 2) (a * (v.t - T)) v.x (expand stp (j + 2)) = (0, w) ∧
          v.x < τ ∧ τ < v.t ∧ w.brackt = true ∧ w.t = τ ∧
          ((w.x = v.x ∧ w.y = v.t) ∨ (w.x = v.t ∧ w.y = v.x)) := by
        unfold mtInterval
        split_ifs with hmod
        · have hτx : v.x < (1 - p.ftol) * T := by
            have := mul_le_mul_of_nonneg_right hfg hT.le
            linarith
          have hτt : (1 - p.ftol) * T < v.t := by linarith [mul_nonneg hf0 hT.le]
          obtain ⟨w, h1, h2, h3, h4⟩ := updateTrial_beyond (sqrt := env.sqrt) hsq
            (v := { v with fx := v.fx - v.x * (p.ftol * -(a * T)), dx := v.dx - p.ftol * -(a * T),
                           fy := v.fy - v.y * (p.ftol * -(a * T)), dy := v.dy - p.ftol * -(a * T) })
            (ft := f - a * T * v.t + a / 2 * v.t ^ 2 - v.t * (p.ftol * -(a * T)))
            (dt := a * (v.t - T) - p.ftol * -(a * T)) (τ := (1 - p.ftol) * T) (tmax := expand stp (j + 2))
            ha hb hτx hτt (by dsimp only; rw [hdx]; ring) (by dsimp only; ring)
            (by dsimp only; rw [hfx]; ring) hm2
          dsimp only at h1 h4 ⊢
          rw [h1]
          exact ⟨_, _, .inr rfl, rfl, hτx, hτt, h2, h3, h4⟩
        · obtain ⟨w, h1, h2, h3, h4⟩ := updateTrial_beyond (sqrt := env.sqrt) hsq (v := v)
            (ft := f - a * T * v.t + a / 2 * v.t ^ 2) (dt := a * (v.t - T)) (tmax := expand stp (j + 2))
            ha hb hxT hgt hdx rfl (by have := hfdiff T; linarith) hm2
          exact ⟨_, _, .inl rfl, h1, hxT, hgt, h2, h3, h4⟩
      obtain ⟨τ, w, hτ, hint, hτx, hτt, hwb, hwt, hwxy⟩ := key
      rw [hint]
      dsimp only
      have habs : |w.y - w.x| = v.t - v.x := by
        rcases hwxy with ⟨e1, e2⟩ | ⟨e1, e2⟩
        · rw [e1, e2, abs_of_pos (by linarith)]
        · rw [e1, e2, abs_of_neg (by linarith)]; ring
      have hshrink : mtShrink w prevWidth = w := by
        unfold mtShrink
        rw [if_neg]
        rintro ⟨-, h⟩
        have hc66 : (const 66 100 : K) = 66 / 100 := by simp [const]
        rw [fabs_eq, habs, hc66] at h
        linarith
      rw [hshrink]
      obtain ⟨rem, rfl⟩ : ∃ r, rem = r + 1 := ⟨rem - 1, by omega⟩
      have hτle : τ ≤ T ∧ (1 - p.ftol) * T ≤ τ := by
        have := mul_nonneg hf0 hT.le
        rcases hτ with rfl | rfl
        · exact ⟨le_rfl, by linarith⟩
        · exact ⟨by linarith, le_rfl⟩
      have hmm : min w.x w.y = v.x ∧ max w.x w.y = v.t := by
        rcases hwxy with ⟨e1, e2⟩ | ⟨e1, e2⟩
        · rw [e1, e2]; exact ⟨min_eq_left hxt.le, max_eq_right hxt.le⟩
        · rw [e1, e2]; exact ⟨min_eq_right hxt.le, max_eq_left hxt.le⟩
      obtain ⟨r1, r2, r3, r4⟩ := mtLoop_accept hp hq ha hT rem (j + 1) w st
        (if w.brackt then fabs (w.y - w.x) else width) (if w.brackt then width else prevWidth)
        (vecadd xp s v.t :: tr) (by rw [hwt]; linarith [hmin.2.2]) (by rw [hwt]; linarith)
        (by rw [hwt]; linarith) (by rw [hwt]; exact hτle.2) (by rw [hwt]; exact hτle.1)
        (by push_cast; omega)
        (by
          intro _
          rw [hmm.1, hmm.2, hwt]
          refine ⟨hτx, hτt, ?_⟩
          have h1 := expand_width hstp j
          rw [← ht, ← hx] at h1
          have h2 : p.xtol * v.t ≤ 3 / 4 * v.t := mul_le_mul_of_nonneg_right hp.xtol ht0.le
          linarith)
      refine ⟨⟨?_, ?_⟩, ?_, ?_, ?_⟩
      · rw [r1]; push_cast; omega
      · rw [r1]; push_cast; omega
      · rw [r4, r1]; simp; omega
      · rw [r3, r2]
      · rw [r2, hwt]
        rcases hτ with h | h
        · exact .inl h
        · exact .inr (.inl h)

end Verif.Lbfgs
