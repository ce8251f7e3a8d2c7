import Verif.Model.InfoChoice
import Verif.Spec.InfoChoice
import Verif.Lemmas.Recovery
/-!
Lemmas about the choice of a candidate by an information criterion.
-/
namespace Verif.HeldOut
open Verif.Py

section
variable {K : Type} [LinearOrder K]

theorem ltExt_trans {a b c : Ext K} (h1 : ltExt a b = true) (h2 : ltExt b c = true) :
    ltExt a c = true := by
  cases a <;> cases b <;> cases c <;> simp_all [ltExt]
  exact h1.trans h2

theorem ltExt_of_le {a b c : Ext K} (ha : a ≠ .nan) (h1 : ltExt b a = false) (h2 : ltExt b c = true) :
    ltExt a c = true := by
  cases a <;> cases b <;> cases c <;> simp_all [ltExt]
  exact lt_of_le_of_lt h1 h2

/-- Position and value of the first largest entry. -/
def IsFirstMax (L : List (Ext K)) (i : Nat) : Prop :=
  ∃ b, L[i]? = some b ∧ (∀ x ∈ L, ltExt b x = false) ∧
    ∀ j < i, ∀ x, L[j]? = some x → ltExt x b = true

theorem argmaxExtFrom_first {L : List (Ext K)} (hL : ∀ x ∈ L, x ≠ .nan) (xs : List (Ext K)) :
    ∀ (pre : List (Ext K)) (bi : Nat) (b : Ext K), L = pre ++ xs → pre[bi]? = some b →
      (∀ x ∈ pre, ltExt b x = false) → (∀ j < bi, ∀ x, pre[j]? = some x → ltExt x b = true) →
      IsFirstMax L (argmaxExtFrom bi b pre.length xs) := by
  induction xs with
  | nil =>
    intro pre bi b e h1 h2 h3
    rw [List.append_nil] at e
    subst e
    exact ⟨b, h1, h2, h3⟩
  | cons x xs ih =>
    intro pre bi b e h1 h2 h3
    have hb : b ≠ .nan := hL b (by rw [e]; exact List.mem_append_left _ (List.mem_of_getElem? h1))
    have hx : x ≠ .nan := hL x (by rw [e]; simp)
    have e' : L = (pre ++ [x]) ++ xs := by rw [e]; simp
    have hpre : ∀ z ∈ pre, z ≠ .nan := fun z hz => hL z (by rw [e]; exact List.mem_append_left _ hz)
    rw [argmaxExtFrom, if_neg hb]
    have hlen : pre.length + 1 = (pre ++ [x]).length := by simp
    split_ifs with hc
    · have hlt : ltExt b x = true := hc.resolve_left hx
      rw [hlen]
      refine ih (pre ++ [x]) pre.length x e' (by simp) (fun z hz => ?_) (fun j hj z hz => ?_)
      · rcases List.mem_append.mp hz with hz | hz
        · by_contra hne
          have := ltExt_trans hlt (by simpa using hne)
          rw [h2 z hz] at this
          cases this
        · rw [List.mem_singleton.mp hz]
          cases x <;> simp [ltExt]
      · rw [List.getElem?_append_left hj] at hz
        have hm := List.mem_of_getElem? hz
        exact ltExt_of_le (hpre z hm) (h2 z hm) hlt
    · push Not at hc
      rw [hlen]
      have hbi : bi < pre.length := (List.getElem?_eq_some_iff.mp h1).1
      refine ih (pre ++ [x]) bi b e' (by rw [List.getElem?_append_left hbi]; exact h1) (fun z hz => ?_)
        (fun j hj z hz => ?_)
      · rcases List.mem_append.mp hz with hz | hz
        · exact h2 z hz
        · rw [List.mem_singleton.mp hz]
          simpa using hc.2
      · rw [List.getElem?_append_left (hj.trans hbi)] at hz
        exact h3 j hj z hz

/-- Without NaN `np.argmax` gives the first largest entry. -/
theorem argmaxExt_first {L : List (Ext K)} (hL : ∀ x ∈ L, x ≠ .nan) (h0 : L ≠ []) :
    ∃ i, argmaxExt L = .ok i ∧ IsFirstMax L i := by
  cases L with
  | nil => exact absurd rfl h0
  | cons x xs =>
    refine ⟨_, rfl, ?_⟩
    refine argmaxExtFrom_first hL xs [x] 0 x rfl rfl (fun z hz => ?_) (fun j hj => absurd hj (by omega))
    rw [List.mem_singleton.mp hz]
    cases x <;> simp [ltExt]

end
end Verif.HeldOut

namespace Verif.InfoChoice
open Verif.Py Verif.HeldOut Verif.Scaling Verif.Recovery Verif.Utils Verif.Spec.InfoChoice
  Verif.Spec.Recovery

variable {n p m : Nat}

theorem rss_eq (y q : Fin m → ℝ) : ∑ i, (y i - q i) ^ 2 = rss y q :=
  Finset.sum_congr rfl fun _ _ => pow_two _

theorem rss_nonneg (y q : Fin m → ℝ) : 0 ≤ rss y q := Finset.sum_nonneg fun _ _ => mul_self_nonneg _

theorem rss_eq_zero {y q : Fin m → ℝ} : rss y q = 0 ↔ ∀ i, y i = q i := by
  unfold rss
  rw [Finset.sum_eq_zero_iff_of_nonneg fun _ _ => mul_self_nonneg _]
  simp [sub_eq_zero]

theorem criterion_eq {metric : String} (hm : Known metric) (l : ℝ) (k : Nat) :
    criterion metric l k m = .ok (price metric k m - 2 * l) := by
  unfold criterion
  rcases hm with rfl | rfl | rfl
  · simp [BIC, price]
  · simp [AIC, price]
  · simp only [String.reduceEq, if_false, if_true, AICc, AIC, price, Except.ok.injEq]
    split_ifs
    · ring
    · rfl

/-- The score of a candidate that is not exact. -/
theorem icScore_fin {metric : String} (hm : Known metric) (hpos : m ≠ 0) {y q : Fin m → ℝ}
    (h : rss y q ≠ 0) (k : Nat) :
    icScore metric y q k = .ok (.fin (-(m + cost metric y (q, k)))) := by
  have hm' : (m : ℝ) ≠ 0 := Nat.cast_ne_zero.mpr hpos
  unfold icScore llNormal
  rw [if_neg hpos]
  simp only [mean, rss_eq]
  rw [if_neg (div_ne_zero h hm')]
  simp only [negated, criterion_eq hm, cost]
  congr 3
  ring

/-- The score of an exact candidate. -/
theorem icScore_exact {metric : String} (hm : Known metric) (hpos : m ≠ 0) {y q : Fin m → ℝ}
    (h : rss y q = 0) (k : Nat) : icScore metric y q k = .ok .pinf := by
  unfold icScore llNormal
  rw [if_neg hpos]
  simp only [mean, rss_eq, h, zero_div, if_true, negated, criterion_eq hm]

open Classical in
/-- All scores. -/
theorem icScore_eq {metric : String} (hm : Known metric) (hpos : m ≠ 0) (y : Fin m → ℝ)
    (c : (Fin m → ℝ) × Nat) : icScore metric y c.1 c.2 =
      .ok (if rss y c.1 = 0 then .pinf else .fin (-(m + cost metric y c))) := by
  split_ifs with h
  · exact icScore_exact hm hpos h _
  · exact icScore_fin hm hpos h _

open Classical in
theorem chooseIC_first {metric : String} (hm : Known metric) (hpos : m ≠ 0) (y : Fin m → ℝ)
    {cands : List ((Fin m → ℝ) × Nat)} (h0 : cands ≠ []) :
    ∃ i, chooseIC metric y cands = .ok i ∧ IsFirstMax (cands.map fun c =>
      if rss y c.1 = 0 then .pinf else .fin (-(m + cost metric y c))) i := by
  unfold chooseIC
  rw [mapE_total (fun c => if rss y c.1 = 0 then .pinf else .fin (-(m + cost metric y c)))
    fun c _ => icScore_eq hm hpos y c]
  refine argmaxExt_first (fun x hx => ?_) (by simpa using h0)
  obtain ⟨c, -, rfl⟩ := List.mem_map.mp hx
  split_ifs <;> simp

theorem chooseIC_ok {metric : String} (hm : Known metric) (y : Fin m → ℝ)
    {cands : List ((Fin m → ℝ) × Nat)} (h0 : cands ≠ []) :
    ∃ i, chooseIC metric y cands = .ok i ∧ i < cands.length := by
  by_cases hpos : m = 0
  · have e : ∀ c ∈ cands, icScore metric y c.1 c.2 = .ok ((fun _ => Ext.nan) c) := by
      intro c _
      unfold icScore
      rw [if_pos hpos]
      simp only [negated, criterion_eq hm]
    unfold chooseIC
    rw [mapE_total _ e]
    cases cands with
    | nil => exact absurd rfl h0
    | cons c cs => exact ⟨0, by simp [argmaxExt, argmaxExtFrom_nan], by simp⟩
  · obtain ⟨i, hi, b, hb, -⟩ := chooseIC_first hm hpos y h0
    refine ⟨i, hi, ?_⟩
    have := (List.getElem?_eq_some_iff.mp hb).1
    simpa using this

/-- Some exact candidate: the first exact one is chosen. -/
theorem chooseIC_exact {metric : String} (hm : Known metric) (hpos : m ≠ 0) {y : Fin m → ℝ}
    {cands : List ((Fin m → ℝ) × Nat)} (h : ∃ c ∈ cands, ∀ i, y i = c.1 i) :
    ∃ i c, chooseIC metric y cands = .ok i ∧ cands[i]? = some c ∧ (∀ r, y r = c.1 r) ∧
      ∀ j < i, ∀ d, cands[j]? = some d → ∃ r, y r ≠ d.1 r := by
  obtain ⟨c0, hc0, hex⟩ := h
  obtain ⟨i, hi, b, hb, hmax, hfirst⟩ := chooseIC_first hm hpos y (List.ne_nil_of_mem hc0)
  rw [List.getElem?_map] at hb
  cases hc : cands[i]? with
  | none => rw [hc] at hb; cases hb
  | some c =>
    rw [hc] at hb
    simp only [Option.map_some, Option.some.injEq] at hb
    have h1 := hmax .pinf (List.mem_map.mpr ⟨c0, hc0, if_pos (rss_eq_zero.mpr hex)⟩)
    have hz : rss y c.1 = 0 := by
      by_contra hne
      rw [if_neg hne] at hb
      rw [← hb] at h1
      simp [ltExt] at h1
    refine ⟨i, c, hi, hc, rss_eq_zero.mp hz, fun j hj d hd => ?_⟩
    by_contra hno
    push Not at hno
    have := hfirst j hj .pinf (by rw [List.getElem?_map, hd, Option.map_some, if_pos (rss_eq_zero.mpr hno)])
    simp [ltExt] at this

theorem bestEstimateIC_ok {metric : String} (hm : Known metric) (ols : Ols ℝ n p) (X : Fin n → Fin p → ℝ)
    (y : Fin n → ℝ) {supports : List (Fin p → Bool)} (h0 : supports ≠ []) (train : List (Fin n)) :
    ∃ S ∈ supports, bestEstimateIC metric ols X y supports train = .ok (candidate ols X y train S).coef := by
  unfold bestEstimateIC
  obtain ⟨i, hi, hlt⟩ := chooseIC_ok hm (fun r => y (train.get r)) (cands := supports.map fun S =>
      (fun r => linPred (candidate ols X y train S).coef (candidate ols X y train S).intercept
        (X (train.get r)), numFeatures S)) (by simpa using h0)
  rw [List.length_map] at hlt
  rw [hi]
  refine ⟨supports[i], List.getElem_mem hlt, ?_⟩
  simp only [List.getElem?_eq_getElem hlt]

/-- Training rows that allow recovery give the true coefficients. -/
theorem bestEstimateIC_good {metric : String} (hm : Known metric) {ols : Ols ℝ n p} {fi : Bool}
    {X : Fin n → Fin p → ℝ} {y : Fin n → ℝ} {beta : Fin p → ℝ} {c : ℝ} {supports : List (Fin p → Bool)}
    {train : List (Fin n)}
    (hols : ∀ S ∈ supports, (∃ j, S j = true) → IsLeastSquares fi X y train S
      (ols X y train S).coef (ols X y train S).intercept)
    (hy : ∀ i, y i = affine beta c (X i)) (hc : fi = false → c = 0)
    (hg : GoodTrain fi X y beta supports train) :
    bestEstimateIC metric ols X y supports train = .ok beta := by
  obtain ⟨⟨S, hS, hbS⟩, hsep, hvar⟩ := hg
  have hpos : train.length ≠ 0 := by
    obtain ⟨i, hi, -⟩ := hvar
    exact (List.length_pos_of_mem hi).ne'
  have hSne : ∃ j, S j = true := by
    by_contra hno
    have hb0 : ∀ j, beta j = 0 := fun j => by
      by_contra hj
      exact hno ⟨j, hbS j hj⟩
    obtain ⟨i, -, i', -, hne⟩ := hvar
    exact hne (by rw [hy, hy]; simp [affine, hb0])
  have hexact : ∀ i ∈ train, y i = linPred (candidate ols X y train S).coef
      (candidate ols X y train S).intercept (X i) := by
    unfold candidate
    rw [if_pos hSne]
    obtain ⟨-, hmin⟩ := hols S hS hSne
    have h0 : sse X y train beta c = 0 := by
      unfold sse
      simp [hy]
    have hle := hmin beta c ⟨fun j hj => (by
      by_contra hne
      rw [hbS j hne] at hj
      cases hj), hc⟩
    rw [h0] at hle
    intro i hi
    exact sub_eq_zero.mp (sum_sq_eq_zero _ _ hle i hi)
  obtain ⟨i, q, hi, hq, hz, -⟩ := chooseIC_exact hm hpos (y := fun r => y (train.get r))
    (cands := supports.map fun S =>
      (fun r => linPred (candidate ols X y train S).coef (candidate ols X y train S).intercept
        (X (train.get r)), numFeatures S))
    ⟨_, List.mem_map.mpr ⟨S, hS, rfl⟩, fun r => hexact _ (List.get_mem ..)⟩
  unfold bestEstimateIC
  rw [hi]
  rw [List.getElem?_map] at hq
  cases hT : supports[i]? with
  | none => rw [hT] at hq; cases hq
  | some T =>
    rw [hT] at hq
    simp only [Option.map_some, Option.some.injEq] at hq
    simp only [hT]
    subst hq
    have hTm : T ∈ supports := List.mem_iff_getElem?.mpr ⟨i, hT⟩
    have hz' : ∀ i ∈ train, y i = affine (candidate ols X y train T).coef
        (candidate ols X y train T).intercept (X i) := by
      intro k hk
      obtain ⟨r, rfl⟩ := List.get_of_mem hk
      exact hz r
    by_cases hTne : ∃ j, T j = true
    · unfold candidate at hz' ⊢
      rw [if_pos hTne] at hz' ⊢
      obtain ⟨hadm, -⟩ := hols T hTm hTne
      obtain ⟨hd, -⟩ := hsep T hTm (fun j => beta j - (ols X y train T).coef j)
        (c - (ols X y train T).intercept) (fun j hj => by
          push Not at hj
          have hj' : T j = false := by simpa using hj.1
          rw [hadm.1 j hj', sub_zero]
          exact hj.2) (fun hf => by rw [hc hf, hadm.2 hf, sub_zero])
        (fun i hi => by rw [affine_sub, ← hy i, sub_eq_zero]; exact hz' i hi)
      exact congrArg Except.ok (funext fun j => (sub_eq_zero.mp (hd j)).symm)
    · unfold candidate at hz'
      rw [if_neg hTne] at hz'
      obtain ⟨i, hi, i', hi', hne⟩ := hvar
      have a := hz' i hi
      have a' := hz' i' hi'
      simp only [affine, zero_mul, Finset.sum_const_zero, zero_add] at a a'
      exact absurd (a.trans a'.symm) hne

/-- The estimation stage returns the truth when more than half of the bootstraps allow recovery. -/
theorem estimateIC_good {metric : String} (hm : Known metric) {ols : Ols ℝ n p} {fi : Bool}
    {X : Fin n → Fin p → ℝ} {y : Fin n → ℝ} {beta : Fin p → ℝ} {c : ℝ} {supports : List (Fin p → Bool)}
    {trains : List (List (Fin n))}
    (hols : ∀ b ∈ trains, ∀ S ∈ supports, (∃ j, S j = true) → IsLeastSquares fi X y b S
      (ols X y b S).coef (ols X y b S).intercept)
    (hy : ∀ i, y i = affine beta c (X i)) (hc : fi = false → c = 0)
    (hg : ∃ g : List (List (Fin n)), g.Sublist trains ∧ trains.length < 2 * g.length ∧
      ∀ b ∈ g, GoodTrain fi X y beta supports b) :
    estimateIC metric ols supports trains X y = .ok beta := by
  obtain ⟨g, hsub, hlen, hgood⟩ := hg
  have h0 : supports ≠ [] := by
    intro h
    cases g with
    | nil => simp at hlen
    | cons b g =>
      obtain ⟨S, hS, -⟩ := (hgood b (List.mem_cons_self ..)).complete
      rw [h] at hS
      cases hS
  let r : List (Fin n) → Fin p → ℝ := fun b => match bestEstimateIC metric ols X y supports b with
    | .ok w => w
    | .error _ => fun _ => 0
  have hr : ∀ b ∈ trains, bestEstimateIC metric ols X y supports b = .ok (r b) := by
    intro b _
    obtain ⟨S, -, e⟩ := bestEstimateIC_ok hm ols X y h0 b
    simp only [r, e]
  have hrg : ∀ b ∈ g, r b = beta := by
    intro b hb
    simp only [r, bestEstimateIC_good hm (hols b (hsub.subset hb)) hy hc (hgood b hb)]
  unfold estimateIC
  rw [mapE_total r hr]
  refine congrArg Except.ok (funext fun j => median_majority _ _ _ ?_)
  rw [List.map_map, List.length_map]
  have e : g.map ((fun w => w j) ∘ r) = List.replicate g.length (beta j) := by
    rw [List.eq_replicate_iff]
    refine ⟨List.length_map .., fun x hx => ?_⟩
    obtain ⟨b, hb, rfl⟩ := List.mem_map.mp hx
    simp only [Function.comp, hrg b hb]
  have := (hsub.map ((fun w => w j) ∘ r)).count_le (beta j)
  rw [e, List.count_replicate_self] at this
  omega

end Verif.InfoChoice
