import Verif.Props.LbfgsDir
import Verif.Spec.Converge
import Mathlib.Algebra.Order.BigOperators.Ring.Finset
import Mathlib.Tactic.FieldSimp
import Mathlib.Tactic.Positivity
/-! Helper lemmas for the convergence of the minimiser. -/
namespace Verif.Lbfgs
open Finset Spec

variable {n : Nat} {σ K : Type} [Field K] [LinearOrder K] [IsStrictOrderedRing K]

theorem dot_nonneg (x : Fin n → K) : 0 ≤ dot x x := sum_nonneg fun _ _ => mul_self_nonneg _

theorem cauchy (x y : Fin n → K) : dot x y ^ 2 ≤ dot x x * dot y y := by
  have := sum_mul_sq_le_sq_mul_sq univ x y
  simpa only [dot, sq] using this

/-- A pair as it comes from a strongly monotone and Lipschitz gradient. -/
structure GoodPair (mu L : K) (pr : (Fin n → K) × (Fin n → K)) : Prop where
  pos : 0 < dot pr.1 pr.1
  mono : mu * dot pr.1 pr.1 ≤ dot pr.2 pr.1
  lip : dot pr.2 pr.2 ≤ L ^ 2 * dot pr.1 pr.1

theorem GoodPair.ys {mu L : K} (hmu : 0 < mu) {pr : (Fin n → K) × (Fin n → K)} (h : GoodPair mu L pr) :
    0 < dot pr.2 pr.1 := lt_of_lt_of_le (mul_pos hmu h.pos) h.mono

/-- `μ/L² |y|² ≤ y·s`. -/
theorem GoodPair.yy {mu L : K} (hmu : 0 < mu) (hL : 0 < L) {pr : (Fin n → K) × (Fin n → K)} (h : GoodPair mu L pr) :
    mu / L ^ 2 * dot pr.2 pr.2 ≤ dot pr.2 pr.1 := by
  have h1 := mul_le_mul_of_nonneg_left h.lip (show 0 ≤ mu / L ^ 2 by positivity)
  have h2 : mu / L ^ 2 * (L ^ 2 * dot pr.1 pr.1) = mu * dot pr.1 pr.1 := by field_simp
  linarith [h.mono]

/-- `μ² |s|² ≤ |y|²`. -/
theorem GoodPair.ss {mu L : K} (hmu : 0 < mu) {pr : (Fin n → K) × (Fin n → K)} (h : GoodPair mu L pr) :
    mu ^ 2 * dot pr.1 pr.1 ≤ dot pr.2 pr.2 := by
  have h1 := cauchy pr.2 pr.1
  have h2 : (mu * dot pr.1 pr.1) ^ 2 ≤ dot pr.2 pr.1 ^ 2 :=
    pow_le_pow_left₀ (mul_nonneg hmu.le h.pos.le) h.mono 2
  by_contra hn
  push Not at hn
  nlinarith [mul_lt_mul_of_pos_right hn h.pos]

theorem lower_pos {mu L : K} (hmu : 0 < mu) (hL : 0 < L) (j : Nat) : 0 < lower mu L j := by
  unfold lower; positivity

theorem upper_pos {mu L : K} (hmu : 0 < mu) : ∀ j, 0 < upper mu L j
  | 0 => by unfold upper; positivity
  | j + 1 => by have := upper_pos (L := L) hmu j; unfold upper; positivity

theorem lower_anti {mu L : K} (hmu : 0 < mu) (hL : 0 < L) {i j : Nat} (h : i ≤ j) : lower mu L j ≤ lower mu L i := by
  unfold lower
  have h' : (i : K) ≤ j := Nat.cast_le.2 h
  have h0 : (0 : K) ≤ i := Nat.cast_nonneg _
  exact div_le_div_of_nonneg_left hmu.le (by positivity)
    (mul_le_mul_of_nonneg_left (by linarith) (by positivity))

theorem upper_mono {mu L : K} (hmu : 0 < mu) (hL : mu ≤ L) {i j : Nat} (h : i ≤ j) : upper mu L i ≤ upper mu L j := by
  induction h with
  | refl => exact le_refl _
  | @step j _ ih =>
    have h0 := upper_pos (L := L) hmu j
    refine ih.trans ?_
    show _ ≤ (L / mu) ^ 2 * upper mu L j + 1 / mu
    have h1 : (0:K) ≤ 1 / mu := by positivity
    have h2 : 1 ≤ L / mu := (one_le_div hmu).2 hL
    have h3 : 1 ≤ (L / mu) ^ 2 := one_le_pow₀ h2
    nlinarith

theorem twoLoop_form {gamma : K} (l : List ((Fin n → K) × (Fin n → K))) (s y q : Fin n → K) (hys : 0 < dot y s) :
    dot q (twoLoop gamma ((s, y) :: l) q) =
      dot (fun i => q i - dot s q / dot y s * y i) (twoLoop gamma l (fun i => q i - dot s q / dot y s * y i)) +
        (dot s q / dot y s) ^ 2 * dot y s := by
  set a := dot s q / dot y s with ha
  set v : Fin n → K := fun i => q i - a * y i with hv
  set r := twoLoop gamma l v with hr
  have h1 : twoLoop gamma ((s, y) :: l) q = fun i => r i + (a - dot y r / dot y s) * s i := rfl
  have h2 : dot v r = dot q r - a * dot y r := by
    rw [dot_comm v r, dot_comm q r, dot_comm y r, hv]
    exact dot_sub r q y a
  rw [h1, dot_add, h2, dot_comm q s, ha]
  field_simp
  ring

/-- `|v + w|² ≤ (α + β) (|v|²/α + |w|²/β)`, with `A` for `|v|²/α` and `B` for `|w|²/β`. -/
theorem titu (v w : Fin n → K) {α β A B : K} (hα : 0 < α) (hβ : 0 < β) (hA : dot v v ≤ α * A) (hB : dot w w ≤ β * B) :
    dot (fun i => v i + w i) (fun i => v i + w i) ≤ (α + β) * (A + B) := by
  have h1 : 0 ≤ dot (fun i => β * v i - α * w i) (fun i => β * v i - α * w i) := dot_nonneg _
  have e1 : dot (fun i => β * v i - α * w i) (fun i => β * v i - α * w i) =
      β ^ 2 * dot v v - 2 * α * β * dot v w + α ^ 2 * dot w w := by
    unfold dot
    rw [mul_sum, mul_sum, mul_sum, ← sum_sub_distrib, ← sum_add_distrib]
    exact sum_congr rfl fun i _ => by ring
  have e2 : dot (fun i => v i + w i) (fun i => v i + w i) = dot v v + 2 * dot v w + dot w w := by
    unfold dot
    rw [mul_sum, ← sum_add_distrib, ← sum_add_distrib]
    exact sum_congr rfl fun i _ => by ring
  rw [e2]
  rw [e1] at h1
  have h2 : 2 * (α * β) * dot v w ≤ (α * β) * (β * A + α * B) := by
    have h3 := mul_le_mul_of_nonneg_left hA (sq_nonneg β)
    have h4 := mul_le_mul_of_nonneg_left hB (sq_nonneg α)
    nlinarith
  have h5 : 2 * dot v w ≤ β * A + α * B := by
    refine le_of_mul_le_mul_left ?_ (mul_pos hα hβ)
    linarith
  linarith

theorem twoLoop_lower {mu L : K} (hmu : 0 < mu) (hL : 0 < L) {gamma : K} (hg : mu / L ^ 2 ≤ gamma)
    (l : List ((Fin n → K) × (Fin n → K))) (hl : ∀ pr ∈ l, GoodPair mu L pr) (q : Fin n → K) :
    lower mu L l.length * dot q q ≤ dot q (twoLoop gamma l q) := by
  induction l generalizing q with
  | nil =>
    have : dot q (twoLoop gamma [] q) = gamma * dot q q := by
      unfold twoLoop dot
      rw [mul_sum]
      exact sum_congr rfl fun i _ => by ring
    rw [this]
    refine mul_le_mul_of_nonneg_right ?_ (dot_nonneg q)
    simpa [lower] using hg
  | cons pr l ih =>
    have hp := hl pr (List.mem_cons_self ..)
    obtain ⟨s, y⟩ := pr
    have hys : 0 < dot y s := hp.ys hmu
    rw [twoLoop_form l s y q hys]
    set a := dot s q / dot y s with ha
    set v : Fin n → K := fun i => q i - a * y i with hv
    have h1 := ih (fun pr h => hl pr (List.mem_cons_of_mem _ h)) v
    have h2 := hp.yy hmu hL
    have hlp := lower_pos hmu hL l.length
    have h3 : dot q q ≤ (1 / lower mu L l.length + L ^ 2 / mu) *
        (dot v (twoLoop gamma l v) + a ^ 2 * dot y s) := by
      have := titu v (fun i => a * y i) (α := 1 / lower mu L l.length) (β := L ^ 2 / mu)
        (A := dot v (twoLoop gamma l v)) (B := a ^ 2 * dot y s) (by positivity) (by positivity)
        (by rw [one_div_mul_eq_div, le_div_iff₀ hlp]; linarith)
        (by
          have e : dot (fun i => a * y i) (fun i => a * y i) = a ^ 2 * dot y y := by
            unfold dot; rw [mul_sum]; exact sum_congr rfl fun i _ => by ring
          rw [e]
          have h4 := mul_le_mul_of_nonneg_left h2 (show 0 ≤ L ^ 2 / mu * a ^ 2 by positivity)
          have h5 : L ^ 2 / mu * a ^ 2 * (mu / L ^ 2 * dot y y) = a ^ 2 * dot y y := by field_simp
          have h6 : L ^ 2 / mu * a ^ 2 * dot y s = L ^ 2 / mu * (a ^ 2 * dot y s) := by ring
          rw [h6, show dot (s, y).2 (s, y).2 = dot y y from rfl, h5] at h4
          exact h4)
      have hq : (fun i => v i + a * y i) = q := by funext i; rw [hv]; ring
      rwa [hq] at this
    have h4 : 1 / lower mu L l.length + L ^ 2 / mu = 1 / lower mu L ((s, y) :: l).length := by
      unfold lower
      rw [List.length_cons]
      push_cast
      field_simp
    rw [h4, one_div_mul_eq_div, le_div_iff₀ (lower_pos hmu hL _)] at h3
    linarith

/-- The first loop multiplies a vector by a matrix whose norm is at most `L / μ`. -/
theorem projector_bound {mu L : K} (hmu : 0 < mu) {s y : Fin n → K} (hp : GoodPair mu L (s, y)) (q : Fin n → K) :
    dot (fun i => q i - dot s q / dot y s * y i) (fun i => q i - dot s q / dot y s * y i) ≤
      (L / mu) ^ 2 * dot q q := by
  have hys : 0 < dot y s := hp.ys hmu
  have hss : 0 < dot s s := hp.pos
  have hmono : mu * dot s s ≤ dot y s := hp.mono
  have hlip : dot y y ≤ L ^ 2 * dot s s := hp.lip
  set a := dot s q / dot y s with ha
  set v : Fin n → K := fun i => q i - a * y i with hv
  have hsv : dot v s = 0 := by
    rw [dot_comm, hv, dot_sub, dot_comm s y, ha]
    field_simp
    ring
  have hqq : dot q q = dot v v + 2 * a * dot v y + a ^ 2 * dot y y := by
    have hq : q = fun i => v i + a * y i := by funext i; rw [hv]; ring
    conv_lhs => rw [hq]
    unfold dot
    rw [mul_sum, mul_sum, ← sum_add_distrib, ← sum_add_distrib]
    exact sum_congr rfl fun i _ => by ring
  have h1 : dot y y * dot v v - dot v y ^ 2 ≤ dot y y * dot q q := by
    rw [hqq]
    nlinarith [sq_nonneg (dot v y + a * dot y y)]
  have h2 : dot s s * dot v y ^ 2 ≤ dot v v * (dot s s * dot y y - dot y s ^ 2) := by
    have hc := cauchy v (fun i => dot s s * y i - dot y s * s i)
    have e1 : dot v (fun i => dot s s * y i - dot y s * s i) = dot s s * dot v y - dot y s * dot v s := by
      simp only [dot, mul_sum, ← sum_sub_distrib]
      exact sum_congr rfl fun i _ => by ring
    have e2 : dot (fun i => dot s s * y i - dot y s * s i) (fun i => dot s s * y i - dot y s * s i) =
        dot s s * (dot s s * dot y y - dot y s ^ 2) := by
      have : ∀ A B : K, dot (fun i => A * y i - B * s i) (fun i => A * y i - B * s i) =
          A ^ 2 * dot y y - 2 * A * B * dot y s + B ^ 2 * dot s s := by
        intro A B
        simp only [dot, mul_sum, ← sum_sub_distrib, ← sum_add_distrib]
        exact sum_congr rfl fun i _ => by ring
      rw [this]; ring
    rw [e1, e2, hsv, mul_zero, sub_zero] at hc
    refine le_of_mul_le_mul_left ?_ hss
    linarith
  have h3 : dot y s ^ 2 * dot v v ≤ dot s s * dot y y * dot q q := by
    have := mul_le_mul_of_nonneg_left h1 hss.le
    nlinarith
  have h4 : (mu * dot s s) ^ 2 * dot v v ≤ (L * dot s s) ^ 2 * dot q q := by
    have h5 := mul_le_mul_of_nonneg_right (pow_le_pow_left₀ (mul_nonneg hmu.le hss.le) hmono 2) (dot_nonneg v)
    have h6 := mul_le_mul_of_nonneg_right (mul_le_mul_of_nonneg_left hlip hss.le) (dot_nonneg q)
    nlinarith
  rw [div_pow, div_mul_eq_mul_div, le_div_iff₀ (by positivity)]
  refine le_of_mul_le_mul_left ?_ (pow_pos hss 2)
  nlinarith

theorem twoLoop_upper {mu L : K} (hmu : 0 < mu) {gamma : K} (hg : gamma ≤ 1 / mu)
    (l : List ((Fin n → K) × (Fin n → K))) (hl : ∀ pr ∈ l, GoodPair mu L pr) (q : Fin n → K) :
    dot q (twoLoop gamma l q) ≤ upper mu L l.length * dot q q := by
  induction l generalizing q with
  | nil =>
    have : dot q (twoLoop gamma [] q) = gamma * dot q q := by
      unfold twoLoop dot
      rw [mul_sum]
      exact sum_congr rfl fun i _ => by ring
    rw [this]
    exact mul_le_mul_of_nonneg_right hg (dot_nonneg q)
  | cons pr l ih =>
    have hp := hl pr (List.mem_cons_self ..)
    obtain ⟨s, y⟩ := pr
    have hys : 0 < dot y s := hp.ys hmu
    have hmono : mu * dot s s ≤ dot y s := hp.mono
    rw [twoLoop_form l s y q hys]
    have h1 := ih (fun pr h => hl pr (List.mem_cons_of_mem _ h)) (fun i => q i - dot s q / dot y s * y i)
    have h2 := projector_bound hmu hp q
    have h3 := mul_le_mul_of_nonneg_left h2 (upper_pos (L := L) hmu l.length).le
    have h4 : (dot s q / dot y s) ^ 2 * dot y s ≤ 1 / mu * dot q q := by
      have e : (dot s q / dot y s) ^ 2 * dot y s = dot s q ^ 2 / dot y s := by field_simp
      rw [e, div_le_iff₀ hys, one_div_mul_eq_div, div_mul_eq_mul_div, le_div_iff₀ hmu]
      have h5 := cauchy s q
      have h6 := mul_le_mul_of_nonneg_right hmono (dot_nonneg q)
      nlinarith
    show _ ≤ ((L / mu) ^ 2 * upper mu L l.length + 1 / mu) * dot q q
    linarith

theorem bfgs_symm (gamma : K) (l : List ((Fin n → K) × (Fin n → K))) : (bfgs gamma l).transpose = bfgs gamma l := by
  induction l with
  | nil => simp [bfgs]
  | cons pr l ih =>
    obtain ⟨s, y⟩ := pr
    simp only [bfgs, Matrix.transpose_add, Matrix.transpose_mul, Matrix.transpose_sub, Matrix.transpose_smul,
      Matrix.transpose_one, ih, Matrix.transpose_vecMulVec, Matrix.mul_assoc]

/-- The product of a vector with the matrix is bounded by the form. -/
theorem twoLoop_norm {gamma h : K} (hh : 0 < h) (l : List ((Fin n → K) × (Fin n → K)))
    (hlo : ∀ q : Fin n → K, 0 ≤ dot q (twoLoop gamma l q))
    (hup : ∀ q : Fin n → K, dot q (twoLoop gamma l q) ≤ h * dot q q) (q : Fin n → K) :
    dot (twoLoop gamma l q) (twoLoop gamma l q) ≤ h * dot q (twoLoop gamma l q) := by
  set w := twoLoop gamma l q with hw
  have hform : ∀ u : Fin n → K, twoLoop gamma l u = (bfgs gamma l).mulVec u := C69_product gamma l
  have hsym : dot q (twoLoop gamma l w) = dot w w := by
    rw [hform, hw, hform]
    show q ⬝ᵥ _ = _ ⬝ᵥ _
    rw [Matrix.dotProduct_mulVec, ← Matrix.mulVec_transpose, bfgs_symm]
  have e2 : twoLoop gamma l (fun i => h * q i - w i) = fun i => h * w i - twoLoop gamma l w i := by
    have e : (fun i => h * q i - w i) = h • q - w := rfl
    rw [e, hform, Matrix.mulVec_sub, Matrix.mulVec_smul, ← hform, ← hform, ← hw]
    rfl
  have e3 : dot (fun i => h * q i - w i) (fun i => h * w i - twoLoop gamma l w i) =
      h ^ 2 * dot q w - h * dot q (twoLoop gamma l w) - h * dot w w + dot w (twoLoop gamma l w) := by
    simp only [dot, mul_sum, ← sum_sub_distrib, ← sum_add_distrib]
    exact sum_congr rfl fun i _ => by ring
  have h1 := hlo (fun i => h * q i - w i)
  rw [e2, e3, hsym] at h1
  have h2 := hup w
  refine le_of_mul_le_mul_left ?_ hh
  nlinarith

theorem scale_bounds {mu L : K} (hmu : 0 < mu) (hL : 0 < L) {C : List ((Fin n → K) × (Fin n → K))} (hne : C ≠ [])
    (hC : ∀ pr ∈ C, GoodPair mu L pr) : mu / L ^ 2 ≤ scale C ∧ scale C ≤ 1 / mu := by
  rcases C with _ | ⟨⟨s, y⟩, l⟩
  · exact absurd rfl hne
  have hp := hC (s, y) (List.mem_cons_self ..)
  have hys : 0 < dot y s := hp.ys hmu
  have hss : mu ^ 2 * dot s s ≤ dot y y := hp.ss hmu
  have hyy : 0 < dot y y := lt_of_lt_of_le (mul_pos (by positivity) hp.pos) hss
  show mu / L ^ 2 ≤ dot y s / dot y y ∧ dot y s / dot y y ≤ _
  refine ⟨(le_div_iff₀ hyy).2 (hp.yy hmu hL), ?_⟩
  have hc := cauchy y s
  have hmono : mu * dot s s ≤ dot y s := hp.mono
  rw [div_le_div_iff₀ hyy hmu, one_mul]
  have h1 := mul_le_mul_of_nonneg_right hc hmu.le
  have h2 := mul_le_mul_of_nonneg_left hmono hyy.le
  refine le_of_mul_le_mul_left ?_ hys
  nlinarith

theorem corrections_mem {G : (Fin n → K) → Fin n → K} :
    ∀ (l : List ((Fin n → K) × (Fin n → K))), (∀ a ∈ l, a.2 = G a.1) → ∀ pr ∈ corrections l,
      ∃ x y, pr = (fun i => x i - y i, fun i => G x i - G y i)
  | [], _, pr, h => by cases h
  | [_], _, pr, h => by cases h
  | a :: b :: l, hl, pr, h => by
    rcases List.mem_cons.1 h with rfl | h
    · refine ⟨a.1, b.1, ?_⟩
      rw [hl a (List.mem_cons_self ..), hl b (List.mem_cons_of_mem _ (List.mem_cons_self ..))]
    · exact corrections_mem (b :: l) (fun c hc => hl c (List.mem_cons_of_mem _ hc)) pr h

theorem strict_of_strong {G : (Fin n → K) → Fin n → K} {mu L : K} (hG : StrongSmooth G mu L) {x y : Fin n → K}
    (h : x ≠ y) : 0 < dot (fun i => G x i - G y i) (fun i => x i - y i) :=
  lt_of_lt_of_le (mul_pos hG.mu_pos (dot_self_pos fun h0 => h (funext fun i => sub_eq_zero.1 (congrFun h0 i))))
    (hG.mono x y)

theorem curved_of_strong {env : Env n σ K} {mu L : K} (hG : StrongSmooth (fun x => (env.eval x).2) mu L)
    {p : Par K} (hck : check n p = none) (hgt : p.linesearch = 0 → p.gtol < 1) : Curved env p := by
  by_cases hc : p.c = 0
  · by_cases h1 : p.linesearch = 1
    · exact .inr ⟨.inr h1, fun x y hxy => strict_of_strong hG hxy⟩
    · refine .inl ⟨hc, ?_⟩
      have := (ok_of_check hck).search (by rw [fillEnd_eq]; exact hc)
      rw [fillEnd_eq] at this
      rcases this with h | h | h | h
      · exact .inr (.inr ⟨h, hgt h⟩)
      · exact absurd h h1
      · exact .inl h
      · exact .inr (.inl h)
  · exact .inr ⟨.inl hc, fun x y hxy => strict_of_strong hG hxy⟩

/-- The correction pairs of a strongly convex, smooth objective. -/
theorem pairs_good {env : Env n σ K} {mu L : K} (hG : StrongSmooth (fun x => (env.eval x).2) mu L)
    {p : Par K} {x0 : Fin n → K} {s : St n σ K} (hl : Loop env p x0 s)
    (hpos : ∀ pr ∈ corrections (s.reports.map (fun q => (q.x, q.g)) ++ [(x0, (env.eval x0).2)]),
      0 < dot pr.2 pr.1) :
    ∀ pr ∈ corrections (s.reports.map (fun q => (q.x, q.g)) ++ [(x0, (env.eval x0).2)]), GoodPair mu L pr := by
  intro pr hpr
  have h0 := hpos pr hpr
  obtain ⟨x, y, rfl⟩ := corrections_mem (G := fun x => (env.eval x).2) _ (fun a ha => by
    rcases List.mem_append.1 ha with ha | ha
    · obtain ⟨q, hq, rfl⟩ := List.mem_map.1 ha
      exact (hl.hist.good q hq).2.1
    · rw [List.mem_singleton.1 ha]) pr hpr
  refine ⟨dot_self_pos fun h => ?_, hG.mono x y, hG.lip x y⟩
  change (fun i => x i - y i) = 0 at h
  have h1 : dot (fun i => (env.eval x).2 i - (env.eval y).2 i) (fun i => x i - y i) = 0 := by
    rw [h]; simp [dot]
  exact h0.ne' h1

theorem Spec.IsSqrt.zero {sqrt : K → K} (h : IsSqrt sqrt) : sqrt 0 = 0 :=
  mul_self_eq_zero.1 (h 0 le_rfl).2

theorem Spec.IsSqrt.pos {sqrt : K → K} (h : IsSqrt sqrt) {v : K} (hv : 0 < v) : 0 < sqrt v := by
  obtain ⟨h1, h2⟩ := h v hv.le
  refine lt_of_le_of_ne h1 fun h0 => ?_
  rw [← h0, mul_zero] at h2
  exact hv.ne h2

/-- At every iteration the direction goes down at least proportionally to the gradient, and is not longer
    than a multiple of it. -/
theorem direction_bounds {env : Env n σ K} (hsq : IsSqrt env.sqrt) {mu L : K}
    (hG : StrongSmooth (fun x => (env.eval x).2) mu L) {p : Par K} (hc : p.c = 0) (hm : 1 ≤ p.m)
    (hgt : p.linesearch = 0 → p.gtol < 1) {x0 : Fin n → K} {cb : σ} {s : St n σ K}
    (h : Reach env p x0 cb s) :
    dot s.g s.d ≤ - (descent mu L p.m.toNat * dot s.g s.g) ∧
      dot s.d s.d ≤ max 1 (upper mu L p.m.toNat) * - dot s.g s.d := by
  obtain ⟨hck, hl, _⟩ := reach_loop h
  have hcur := curved_of_strong hG hck hgt
  obtain ⟨_, _, hpos⟩ := C85_descent_partial env hsq.zero (fun _ => hsq.pos) p hm hcur x0 cb s h _ rfl
  have hgood := pairs_good hG hl hpos
  have hgg := dot_nonneg s.g
  unfold descent
  by_cases hk : s.reports = []
  · have hd : s.d = fun i => - s.g i := by
      cases h with
      | start =>
        show (fun i => - effGrad (fillEnd n p) _ _ i) = fun i => - (start env (fillEnd n p) x0 cb).g i
        unfold effGrad
        rw [if_pos (by rw [fillEnd_eq]; exact feq_iff.2 hc)]
        rfl
      | next hr hi =>
        obtain ⟨_, _, _, pf, cb', rfl⟩ := iterate_inl hi
        cases hk
    have h1 : dot s.g s.d = - dot s.g s.g := by
      rw [hd]; unfold dot; rw [← sum_neg_distrib]; exact sum_congr rfl fun i _ => by ring
    have h2 : dot s.d s.d = dot s.g s.g := by
      rw [hd]; exact sum_congr rfl fun i _ => by ring
    rw [h1, h2]
    have h3 : min 1 (lower mu L p.m.toNat) ≤ 1 := min_le_left _ _
    have h4 : 1 ≤ max 1 (upper mu L p.m.toNat) := le_max_left _ _
    exact ⟨neg_le_neg (by nlinarith), by rw [neg_neg]; nlinarith⟩
  · obtain ⟨hlen, hd⟩ := C68_memory env p x0 cb s h hm hk _ rfl
    set C := corrections (s.reports.map (fun q => (q.x, q.g)) ++ [(x0, (env.eval x0).2)]) with hC
    have hne : C ≠ [] := by
      intro h0
      rw [h0] at hlen
      exact hk (List.length_eq_zero_iff.1 hlen.symm)
    rw [if_pos hc] at hd
    have hd' : s.d = twoLoop (scale C) (C.take p.m.toNat) (fun i => - s.g i) := by
      funext i
      rw [hd i, if_neg fun h => h.1 hc]
    obtain ⟨hs1, hs2⟩ := scale_bounds hG.mu_pos hG.L_pos hne hgood
    have hgood' : ∀ pr ∈ C.take p.m.toNat, GoodPair mu L pr := fun pr hpr =>
      hgood pr (List.mem_of_mem_take hpr)
    have hle : (C.take p.m.toNat).length ≤ p.m.toNat := List.length_take_le ..
    have h1 := twoLoop_lower hG.mu_pos hG.L_pos hs1 _ hgood' (fun i => - s.g i)
    have h2 := twoLoop_norm (upper_pos (L := L) hG.mu_pos _) (C.take p.m.toNat)
      (fun q => (mul_nonneg (lower_pos hG.mu_pos hG.L_pos _).le (dot_nonneg q)).trans
        (twoLoop_lower hG.mu_pos hG.L_pos hs1 _ hgood' q))
      (fun q => twoLoop_upper hG.mu_pos hs2 _ hgood' q) (fun i => - s.g i)
    rw [← hd'] at h1 h2
    have e1 : dot (fun i => - s.g i) (fun i => - s.g i) = dot s.g s.g := sum_congr rfl fun i _ => by ring
    have e2 : dot (fun i => - s.g i) s.d = - dot s.g s.d := by
      unfold dot; rw [← sum_neg_distrib]; exact sum_congr rfl fun i _ => by ring
    rw [e1, e2] at h1
    rw [e2] at h2
    have h5 : mu ≤ L := by
      obtain ⟨pr, hpr⟩ := List.exists_mem_of_ne_nil C hne
      have h6 := (hgood pr hpr).ss hG.mu_pos
      have h7 := (hgood pr hpr).lip
      have h8 : mu ^ 2 ≤ L ^ 2 := le_of_mul_le_mul_right (h6.trans h7) (hgood pr hpr).pos
      exact le_of_sq_le_sq h8 hG.L_pos.le
    have h9 : 0 ≤ - dot s.g s.d := (mul_nonneg (lower_pos hG.mu_pos hG.L_pos _).le hgg).trans h1
    have h3 := mul_le_mul_of_nonneg_right
      ((min_le_right 1 (lower mu L p.m.toNat)).trans (lower_anti hG.mu_pos hG.L_pos hle)) hgg
    have h4 := mul_le_mul_of_nonneg_right
      ((upper_mono hG.mu_pos h5 hle).trans (le_max_right 1 (upper mu L p.m.toNat))) h9
    exact ⟨by linarith, h2.trans h4⟩

/-- The gradient of a state at the head of the loop is not small. -/
theorem reach_gradient {env : Env n σ K} (hsq : IsSqrt env.sqrt) {p : Par K} (hc : p.c = 0)
    (he : 0 < p.epsilon) {x0 : Fin n → K} {cb : σ} {s : St n σ K} (h : Reach env p x0 cb s) :
    p.epsilon ^ 2 < dot s.g s.g := by
  have key : ∀ (x g : Fin n → K), ¬ converged p (vec2norm env.sqrt x) (vec2norm env.sqrt g) →
      p.epsilon ^ 2 < dot g g := by
    intro x g hn
    unfold converged vec2norm at hn
    rw [vecdot_eq, vecdot_eq, not_le] at hn
    obtain ⟨h1, h2⟩ := hsq _ (dot_nonneg g)
    have hx : (1 : K) ≤ if env.sqrt (dot x x) < 1 then 1 else env.sqrt (dot x x) := by
      split_ifs with h
      · exact le_rfl
      · exact not_lt.1 h
    rw [lt_div_iff₀ (lt_of_lt_of_le one_pos hx)] at hn
    have h3 : p.epsilon < env.sqrt (dot g g) := lt_of_le_of_lt (by nlinarith) hn
    nlinarith
  have hcf : ∀ a b, converged (fillEnd n p) a b ↔ converged p a b := by
    intro a b; rw [fillEnd_eq]; rfl
  have hef : ∀ a b : Fin n → K, effGrad (fillEnd n p) a b = a := by
    intro a b
    unfold effGrad
    rw [if_pos (by rw [fillEnd_eq]; exact feq_iff.2 hc)]
  cases h with
  | start hck ha =>
    refine key x0 _ fun hcv => ha ?_
    unfold already
    rw [hef, hcf]
    exact hcv
  | next hr hi =>
    obtain ⟨_, hnc, _, pf, cb', rfl⟩ := iterate_inl hi
    rw [hef, hcf] at hnc
    exact key _ _ hnc

/-- A step that is not too short decreases the objective in proportion to the gradient. -/
theorem search_decrease {env : Env n σ K} {p : Par K} (ok : Ok n p) (hc : p.c = 0) {s : St n σ K}
    (h : 0 ≤ (lineSearch env p s).ret) {t lam : K} (hlam : 0 ≤ lam)
    (hd : dot s.g s.d ≤ -(lam * dot s.g s.g)) (ht : t ≤ (lineSearch env p s).step) :
    (lineSearch env p s).f ≤ s.fx - p.ftol * t * lam * dot s.g s.g := by
  have hg := lineSearch_good ok s h
  obtain ⟨h1, _, h3⟩ := hg.plain hc
  have h4 : (lineSearch env p s).step * dot s.g s.d ≤ (lineSearch env p s).step * -(lam * dot s.g s.g) :=
    mul_le_mul_of_nonneg_left hd hg.step
  have h5 : t * (lam * dot s.g s.g) ≤ (lineSearch env p s).step * (lam * dot s.g s.g) :=
    mul_le_mul_of_nonneg_right ht (mul_nonneg hlam (dot_nonneg _))
  have h6 := mul_le_mul_of_nonneg_left (show (lineSearch env p s).step * dot s.g s.d ≤ -(t * (lam * dot s.g s.g)) by
    linarith) ok.ftol
  linarith

/-- The curvature coefficient of a line search. -/
def curvature (p : Par K) : K := if p.linesearch = 0 then p.gtol else p.wolfe

/-- With a curvature condition the step is not too short. -/
theorem step_curvature {env : Env n σ K} {mu L : K} (hG : StrongSmooth (fun x => (env.eval x).2) mu L)
    {p : Par K} (ok : Ok n p) (hc : p.c = 0) (hls : p.linesearch ≠ 1) {s : St n σ K} (inv : Inv env p s)
    (h : 0 ≤ (lineSearch env p s).ret) {U : K} (hU : 0 < U) (hd : dot s.g s.d < 0)
    (hdd : dot s.d s.d ≤ U * - dot s.g s.d) :
    (1 - curvature p) / (L * U) ≤ (lineSearch env p s).step := by
  have hg := lineSearch_good ok s h
  set r := lineSearch env p s with hr
  obtain ⟨h1, h2, _⟩ := hg.plain hc
  have hcur : curvature p * dot s.g s.d ≤ dot r.g s.d := by
    unfold curvature
    by_cases h0 : p.linesearch = 0
    · rw [if_pos h0]
      have := (abs_le.1 (hg.mt hc h0)).1
      linarith
    · rw [if_neg h0]
      refine (hg.wolfe hc ?_).2
      rcases ok.search hc with h | h | h | h
      · exact absurd h h0
      · exact absurd h hls
      · exact .inl h
      · exact .inr h
  have hdiff : (1 - curvature p) * - dot s.g s.d ≤ dot (fun i => r.g i - s.g i) s.d := by
    have e : dot (fun i => r.g i - s.g i) s.d = dot r.g s.d - dot s.g s.d := by
      unfold dot
      rw [← sum_sub_distrib]
      exact sum_congr rfl fun i _ => by ring
    rw [e]
    nlinarith
  have hlip : dot (fun i => r.g i - s.g i) (fun i => r.g i - s.g i) ≤ L ^ 2 * (r.step ^ 2 * dot s.d s.d) := by
    have := hG.lip r.x s.x
    rw [hg.g, inv.g]
    refine this.trans (le_of_eq ?_)
    congr 1
    unfold dot
    rw [mul_sum]
    exact sum_congr rfl fun i _ => by beta_reduce; rw [h2 i]; ring
  have hcs := cauchy (fun i => r.g i - s.g i) s.d
  have h5 : dot (fun i => r.g i - s.g i) s.d ≤ L * r.step * dot s.d s.d := by
    apply le_of_sq_le_sq _ (mul_nonneg (mul_nonneg hG.L_pos.le hg.step) (dot_nonneg _))
    refine hcs.trans ((mul_le_mul_of_nonneg_right hlip (dot_nonneg _)).trans (le_of_eq ?_))
    ring
  have h6 : L * r.step * dot s.d s.d ≤ L * r.step * (U * - dot s.g s.d) :=
    mul_le_mul_of_nonneg_left hdd (mul_nonneg hG.L_pos.le hg.step)
  rw [div_le_iff₀ (mul_pos hG.L_pos hU)]
  refine le_of_mul_le_mul_right ?_ (neg_pos.2 hd)
  calc (1 - curvature p) * - dot s.g s.d ≤ L * r.step * (U * - dot s.g s.d) := hdiff.trans (h5.trans h6)
    _ = r.step * (L * U) * - dot s.g s.d := by ring

/-- If all iterations from the `N`-th on decrease the objective by at least `κ`, their number is bounded. -/
theorem reach_count {env : Env n σ K} {p : Par K} (hc : p.c = 0) {x0 : Fin n → K} {cb : σ} {κ : K} (N : Nat)
    (hdec : ∀ s, Reach env p x0 cb s → N ≤ s.reports.length → 0 ≤ (lineSearch env (fillEnd n p) s).ret →
      (lineSearch env (fillEnd n p) s).f ≤ s.fx - κ) (hκ : 0 ≤ κ) {s : St n σ K} (h : Reach env p x0 cb s) :
    ((s.reports.length : K) - N) * κ ≤ (env.eval x0).1 - s.fx := by
  induction h with
  | start hck _ =>
    have hf : (start env (fillEnd n p) x0 cb).fx = (env.eval x0).1 := by
      show (if feq (fillEnd n p).c 0 then _ else _) = _
      rw [if_pos (by rw [fillEnd_eq]; exact feq_iff.2 hc)]
    rw [hf]
    show ((0 : Nat) - (N : K)) * κ ≤ _
    have : (0 : K) ≤ N := Nat.cast_nonneg _
    push_cast
    nlinarith
  | @next s s' hr hi ih =>
    obtain ⟨hck, hl, _⟩ := reach_loop hr
    have ok := ok_of_check hck
    obtain ⟨h0, _, _, pf, cb', rfl⟩ := iterate_inl hi
    show ((s.reports.length + 1 : Nat) - (N : K)) * κ ≤ (env.eval x0).1 - (lineSearch env (fillEnd n p) s).f
    by_cases hN : N ≤ s.reports.length
    · have := hdec s hr hN h0
      push_cast
      linarith
    · have h1 : ((s.reports.length + 1 : Nat) : K) ≤ N := by
        exact_mod_cast Nat.lt_of_not_le hN
      have hm := (hl.hist.mono (.inl (by rw [fillEnd_eq]; exact hc)))
      have hp := (lineSearch_good ok s h0).plain (by rw [fillEnd_eq]; exact hc)
      have h2 : (lineSearch env (fillEnd n p) s).f ≤ s.fx := by
        have := mul_nonneg (lineSearch_good ok s h0).step (mul_nonneg ok.ftol (neg_nonneg.2 hp.1))
        linarith [hp.2.2]
      have h3 : s.fx ≤ (env.eval x0).1 := by
        have h4 := hist_value hl.hist
        have e : obj env (fillEnd n p) x0 = (env.eval x0).1 := by
          unfold obj penalised
          rw [show (fillEnd n p).c = 0 by rw [fillEnd_eq]; exact hc, zero_mul, add_zero]
        rw [hl.inv.f]
        rw [e] at h4 hm
        rcases hq : s.reports.map (·.fx) with _ | ⟨q, l⟩
        · rw [hq] at h4
          exact (Option.some.inj h4).symm.le
        · rw [hq] at h4 hm
          rw [← Option.some.inj h4]
          exact (List.pairwise_cons.1 hm).1 _ (by simp)
      nlinarith

/-- The backtracking search with sufficient decrease only, if all steps up to `T` have it: an accepted step
    is not shorter than half of that, and with enough trials a step is accepted. -/
theorem btLoop_armijo (env : Env n σ K) {p : Par K} (hl : p.linesearch = LS_ARMIJO) (xp s : Fin n → K)
    (finit dginit : K) {T : K} (hacc : ∀ t, 0 < t → t ≤ T →
      (env.eval (vecadd xp s t)).1 ≤ finit + t * (p.ftol * dginit)) :
    ∀ (rem count : Nat) (stp : K) (tr : List (Fin n → K)), 0 < stp → 0 < rem →
      (p.maxLinesearch = (count + rem : Nat)) →
      let r := btLoop env p xp s finit dginit rem count stp tr
      (0 ≤ r.ret → min stp (T / 2) ≤ r.step) ∧
      (p.minStep ≤ T → stp ≤ p.maxStep → stp ≤ T * 2 ^ (rem - 1) → 0 ≤ r.ret) := by
  intro rem
  induction rem with
  | zero => intro count stp tr _ h; exact absurd h (lt_irrefl _)
  | succ rem ih =>
    intro count stp tr hs _ hm
    simp only [btLoop, vecdot_eq]
    by_cases h1 : finit + stp * (p.ftol * dginit) < (env.eval (vecadd xp s stp)).1
    · rw [if_pos h1]
      have hT : T < stp := by
        by_contra hn
        exact absurd (hacc stp hs (not_lt.1 hn)) (not_le.2 h1)
      by_cases h2 : stp < p.minStep
      · rw [if_pos h2]
        exact ⟨fun h => absurd h (by show ¬ (0:Int) ≤ ERR_MINIMUMSTEP; decide), fun h => absurd (hT.trans h2) (not_lt.2 h)⟩
      rw [if_neg h2]
      by_cases h3 : p.maxStep < stp
      · rw [if_pos h3]
        exact ⟨fun h => absurd h (by show ¬ (0:Int) ≤ ERR_MAXIMUMSTEP; decide), fun _ h => absurd h3 (not_lt.2 h)⟩
      rw [if_neg h3]
      by_cases h4 : p.maxLinesearch ≤ (count : Int) + 1
      · rw [if_pos h4]
        refine ⟨fun h => absurd h (by show ¬ (0:Int) ≤ ERR_MAXIMUMLINESEARCH; decide), fun _ _ h => ?_⟩
        have : rem = 0 := by rw [hm] at h4; push_cast at h4; omega
        subst this
        simp at h
        exact absurd hT (not_lt.2 h)
      rw [if_neg h4]
      have hrem : 0 < rem := by
        by_contra h0
        apply h4
        rw [hm]
        push_cast
        omega
      have hhalf : stp * const 1 2 = stp / 2 := by simp [const]; ring
      rw [hhalf]
      obtain ⟨i1, i2⟩ := ih (count + 1) (stp / 2) (vecadd xp s stp :: tr) (by positivity) hrem
        (by rw [hm]; congr 1; omega)
      refine ⟨fun h => le_trans ?_ (i1 h), fun ha hb hc => i2 ha (by linarith) ?_⟩
      · have : T / 2 ≤ stp / 2 := by linarith
        rw [min_eq_right this]
        exact min_le_right _ _
      · obtain ⟨j, rfl⟩ : ∃ j, rem = j + 1 := ⟨rem - 1, by omega⟩
        simp only [Nat.add_sub_cancel] at hc ⊢
        rw [pow_succ] at hc
        linarith
    · rw [if_neg h1, if_pos hl]
      exact ⟨fun _ => min_le_left _ _, fun _ _ _ => by show (0:Int) ≤ (count : Int) + 1; omega⟩

/-- Steps that have sufficient decrease on a convex, smooth objective. -/
theorem armijo_accepts {env : Env n σ K} {mu L : K} (hG : StrongSmooth (fun x => (env.eval x).2) mu L)
    (hF : ConvexGrad (fun x => (env.eval x).1) (fun x => (env.eval x).2)) (x d : Fin n → K) {U ftol : K}
    (hU : 0 < U) (hd : dot (env.eval x).2 d ≤ 0) (hdd : dot d d ≤ U * - dot (env.eval x).2 d) (t : K) (ht : 0 < t)
    (htT : t ≤ (1 - ftol) / (L * U)) :
    (env.eval (vecadd x d t)).1 ≤ (env.eval x).1 + t * (ftol * dot (env.eval x).2 d) := by
  set g := (env.eval x).2 with hg
  set y := vecadd x d t with hy
  set g' := (env.eval y).2 with hg'
  have hyi : ∀ i, y i = x i + t * d i := fun i => rfl
  have hconv := hF y x
  have e1 : dot (env.eval y).2 (fun i => x i - y i) = - (t * dot g' d) := by
    unfold dot
    rw [mul_sum, ← sum_neg_distrib]
    exact sum_congr rfl fun i _ => by beta_reduce; rw [hyi i]; ring
  rw [e1] at hconv
  have hlip : dot (fun i => g' i - g i) (fun i => g' i - g i) ≤ L ^ 2 * (t ^ 2 * dot d d) := by
    refine (hG.lip y x).trans (le_of_eq ?_)
    congr 1
    unfold dot
    rw [mul_sum]
    exact sum_congr rfl fun i _ => by beta_reduce; rw [hyi i]; ring
  have h5 : dot (fun i => g' i - g i) d ≤ L * t * dot d d := by
    apply le_of_sq_le_sq _ (mul_nonneg (mul_nonneg hG.L_pos.le ht.le) (dot_nonneg _))
    refine (cauchy _ _).trans ((mul_le_mul_of_nonneg_right hlip (dot_nonneg _)).trans (le_of_eq ?_))
    ring
  have e2 : dot (fun i => g' i - g i) d = dot g' d - dot g d := by
    unfold dot
    rw [← sum_sub_distrib]
    exact sum_congr rfl fun i _ => by ring
  rw [e2] at h5
  rw [le_div_iff₀ (mul_pos hG.L_pos hU)] at htT
  have h6 : L * t * dot d d ≤ L * t * (U * - dot g d) :=
    mul_le_mul_of_nonneg_left hdd (mul_nonneg hG.L_pos.le ht.le)
  have h7 : t * (L * U) * - dot g d ≤ (1 - ftol) * - dot g d := mul_le_mul_of_nonneg_right htT (neg_nonneg.2 hd)
  have h9 : dot g' d ≤ ftol * dot g d := by nlinarith
  have h10 := mul_le_mul_of_nonneg_left h9 ht.le
  simp only at hconv
  linarith

theorem descent_pos {mu L : K} (hmu : 0 < mu) (hL : 0 < L) (m : Nat) : 0 < descent mu L m :=
  lt_min one_pos (lower_pos hmu hL m)

theorem reachStep_pos {c mu L : K} (hc : c < 1) (hL : 0 < L) (m : Nat) : 0 < reachStep c mu L m :=
  div_pos (by linarith) (mul_pos hL (lt_of_lt_of_le one_pos (le_max_left _ _)))

theorem curvature_fill {p : Par K} : curvature (fillEnd n p) = curvature p := by
  rw [fillEnd_eq]; rfl

theorem curvature_lt {p : Par K} (hck : check n p = none) (hls : p.linesearch ≠ 1) (hc : p.c = 0)
    (hgt : p.linesearch = 0 → p.gtol < 1) : curvature p < 1 := by
  unfold curvature
  by_cases h : p.linesearch = 0
  · rw [if_pos h]; exact hgt h
  · rw [if_neg h]
    have ok := ok_of_check hck
    have hw := ok.wolfe
    have hs := ok.search
    rw [fillEnd_eq] at hw hs
    rcases hs hc with h1 | h1 | h1 | h1
    · exact absurd h1 h
    · exact absurd h1 hls
    · exact (hw (.inl h1)).2
    · exact (hw (.inr h1)).2

/-- The decrease in an iteration with a curvature condition. -/
theorem decrease_curvature {env : Env n σ K} (hsq : IsSqrt env.sqrt) {mu L : K}
    (hG : StrongSmooth (fun x => (env.eval x).2) mu L) {p : Par K} (hc : p.c = 0) (hm : 1 ≤ p.m)
    (hls : p.linesearch ≠ 1) (hgt : p.linesearch = 0 → p.gtol < 1) (he : 0 < p.epsilon)
    {x0 : Fin n → K} {cb : σ} {s : St n σ K} (h : Reach env p x0 cb s)
    (h0 : 0 ≤ (lineSearch env (fillEnd n p) s).ret) :
    (lineSearch env (fillEnd n p) s).f ≤ s.fx -
      p.ftol * reachStep (curvature p) mu L p.m.toNat * descent mu L p.m.toNat * p.epsilon ^ 2 := by
  obtain ⟨hck, hl, _⟩ := reach_loop h
  have ok := ok_of_check hck
  have hc' : (fillEnd n p).c = 0 := by rw [fillEnd_eq]; exact hc
  obtain ⟨hd, hdd⟩ := direction_bounds hsq hG hc hm hgt h
  have hgg := reach_gradient hsq hc he h
  have hc1 := curvature_lt hck hls hc hgt
  have hdp := descent_pos hG.mu_pos hG.L_pos p.m.toNat
  have hst := step_curvature hG ok hc' (by rw [fillEnd_eq]; exact hls) hl.inv h0
    (lt_of_lt_of_le one_pos (le_max_left _ _)) (lt_of_le_of_lt hd (neg_lt_zero.2 (mul_pos hdp
      (lt_of_le_of_lt (sq_nonneg _) hgg)))) hdd
  rw [curvature_fill] at hst
  have := search_decrease ok hc' h0 hdp.le hd hst
  refine this.trans ?_
  have hf : (fillEnd n p).ftol = p.ftol := by rw [fillEnd_eq]
  have hf0 := ok.ftol
  rw [hf] at hf0 ⊢
  have h1 : 0 ≤ p.ftol * reachStep (curvature p) mu L p.m.toNat * descent mu L p.m.toNat :=
    mul_nonneg (mul_nonneg hf0 (reachStep_pos hc1 hG.L_pos _).le) hdp.le
  have h2 := mul_le_mul_of_nonneg_left hgg.le h1
  show _ - p.ftol * reachStep (curvature p) mu L p.m.toNat * _ * _ ≤ _
  linarith

theorem run_count {env : Env n σ K} {p : Par K} (hc : p.c = 0) {x0 : Fin n → K} {cb : σ} {κ B : K} (N : Nat)
    (hdec : ∀ s, Reach env p x0 cb s → N ≤ s.reports.length → 0 ≤ (lineSearch env (fillEnd n p) s).ret →
      (lineSearch env (fillEnd n p) s).f ≤ s.fx - κ) (hκ : 0 ≤ κ) (hB : ∀ x, B ≤ (env.eval x).1)
    {s : St n σ K} {o : Out n K} (h : Run env (fillEnd n p) s o) (hr : Reach env p x0 cb s) :
    ((o.reports.length : K) - N) * κ ≤ (env.eval x0).1 - B := by
  have e : ∀ x, obj env (fillEnd n p) x = (env.eval x).1 := by
    intro x
    unfold obj penalised
    rw [show (fillEnd n p).c = 0 by rw [fillEnd_eq]; exact hc, zero_mul, add_zero]
  induction h with
  | next h _ ih => exact ih (.next hr h)
  | @done s o h =>
    obtain ⟨hck, hl, _⟩ := reach_loop hr
    have h1 := reach_count hc N hdec hκ hr
    have hsB : B ≤ s.fx := by rw [hl.inv.f, e]; exact hB _
    rcases iterate_inr h with ⟨_, rfl⟩ | ⟨h0, _, _, hrep, _⟩
    · exact h1.trans (by linarith)
    · rw [hrep]
      by_cases hN : N ≤ s.reports.length
      · have h2 := hdec s hr hN h0
        have h3 := (lineSearch_good (ok_of_check hck) s h0).f
        rw [e] at h3
        have h4 := hB (lineSearch env (fillEnd n p) s).x
        rw [← h3] at h4
        push_cast [List.length_cons]
        linarith
      · have h2 : ((s.reports.length + 1 : Nat) : K) ≤ N := by
          exact_mod_cast Nat.lt_of_not_le hN
        have h3 := hB x0
        rw [List.length_cons]
        nlinarith

/-- If the number of iterations is bounded the loop ends. -/
theorem run_of_bound {env : Env n σ K} {p : Par K} {x0 : Fin n → K} {cb : σ} (b : Nat)
    (hb : ∀ s, Reach env p x0 cb s → s.reports.length ≤ b) :
    ∀ (j : Nat) (s : St n σ K), Reach env p x0 cb s → b ≤ s.reports.length + j → ∃ o, Run env (fillEnd n p) s o := by
  intro j
  induction j with
  | zero =>
    intro s hr hj
    rcases h : iterate env (fillEnd n p) s with s' | o
    · have h1 := hb s' (.next hr h)
      obtain ⟨_, _, _, pf, cb', rfl⟩ := iterate_inl h
      change s.reports.length + 1 ≤ b at h1
      omega
    · exact ⟨o, .done h⟩
  | succ j ih =>
    intro s hr hj
    rcases h : iterate env (fillEnd n p) s with s' | o
    · obtain ⟨o, ho⟩ := ih s' (.next hr h) (by
        obtain ⟨_, _, _, pf, cb', rfl⟩ := iterate_inl h
        show b ≤ s.reports.length + 1 + j
        omega)
      exact ⟨o, .next h ho⟩
    · exact ⟨o, .done h⟩

/-- A call ends if the decrease per iteration is bounded from below. -/
theorem lbfgs_ends [Archimedean K] {env : Env n σ K} {p : Par K} (hc : p.c = 0) {x0 : Fin n → K} {cb : σ} {κ B : K}
    (N : Nat) (hdec : ∀ s, Reach env p x0 cb s → N ≤ s.reports.length → 0 ≤ (lineSearch env (fillEnd n p) s).ret →
      (lineSearch env (fillEnd n p) s).f ≤ s.fx - κ) (hκ : check n p = none → 0 < κ)
    (hB : ∀ x, B ≤ (env.eval x).1) : ∃ o, Lbfgs env p x0 cb o := by
  rcases hck : check n p with _ | code
  · have hκ := hκ hck
    by_cases ha : already env (fillEnd n p) (start env (fillEnd n p) x0 cb)
    · exact ⟨_, .already hck ha⟩
    · obtain ⟨b, hb⟩ := exists_nat_gt (((env.eval x0).1 - B) / κ + N)
      have hlen : ∀ s, Reach env p x0 cb s → s.reports.length ≤ b := by
        intro s hr
        obtain ⟨_, hl, _⟩ := reach_loop hr
        have h1 := reach_count hc N hdec hκ.le hr
        have e : obj env (fillEnd n p) s.x = (env.eval s.x).1 := by
          unfold obj penalised
          rw [show (fillEnd n p).c = 0 by rw [fillEnd_eq]; exact hc, zero_mul, add_zero]
        have hsB : B ≤ s.fx := by rw [hl.inv.f, e]; exact hB _
        have h2 : (s.reports.length : K) - N ≤ ((env.eval x0).1 - B) / κ := by
          rw [le_div_iff₀ hκ]; linarith
        have h3 : (s.reports.length : K) < b := by linarith
        exact_mod_cast h3.le
      obtain ⟨o, ho⟩ := run_of_bound b hlen b _ (.start hck ha) (by omega)
      exact ⟨o, .run hck ha ho⟩
  · exact ⟨_, .rejected hck⟩

/-! ### The search with sufficient decrease only -/

theorem reach_step_le {env : Env n σ K} (hsq : IsSqrt env.sqrt) {p : Par K} (hc : p.c = 0) (he : 0 < p.epsilon)
    {x0 : Fin n → K} {cb : σ} {s : St n σ K} (h : Reach env p x0 cb s) :
    s.step ≤ max 1 (1 / p.epsilon) ∧ (s.reports ≠ [] → s.step = 1) := by
  have hgg := reach_gradient hsq hc he h
  cases h with
  | start hck ha =>
    refine ⟨?_, fun h => absurd rfl h⟩
    refine le_trans ?_ (le_max_right _ _)
    show 1 / vec2norm env.sqrt (start env (fillEnd n p) x0 cb).d ≤ _
    unfold vec2norm
    have hdd : dot (start env (fillEnd n p) x0 cb).d (start env (fillEnd n p) x0 cb).d =
        dot (start env (fillEnd n p) x0 cb).g (start env (fillEnd n p) x0 cb).g := by
      refine sum_congr rfl fun i _ => ?_
      have : (start env (fillEnd n p) x0 cb).d i = - (start env (fillEnd n p) x0 cb).g i := by
        show - effGrad (fillEnd n p) _ _ i = _
        unfold effGrad
        rw [if_pos (by rw [fillEnd_eq]; exact feq_iff.2 hc)]
        rfl
      rw [this]; ring
    rw [vecdot_eq, hdd]
    obtain ⟨h1, h2⟩ := hsq _ (dot_nonneg (start env (fillEnd n p) x0 cb).g)
    refine one_div_le_one_div_of_le he ?_
    nlinarith
  | next hr hi =>
    obtain ⟨_, _, _, pf, cb', rfl⟩ := iterate_inl hi
    exact ⟨le_max_left _ _, fun _ => rfl⟩

/-- The backtracking search of an iteration. -/
theorem armijo_search {env : Env n σ K} (hsq : IsSqrt env.sqrt) {mu L : K}
    (hG : StrongSmooth (fun x => (env.eval x).2) mu L)
    (hF : ConvexGrad (fun x => (env.eval x).1) (fun x => (env.eval x).2)) {p : Par K} (hc : p.c = 0) (hm : 1 ≤ p.m)
    (hls : p.linesearch = 1) (hf1 : p.ftol < 1) (he : 0 < p.epsilon)
    {x0 : Fin n → K} {cb : σ} {s : St n σ K} (h : Reach env p x0 cb s) :
    (0 ≤ (lineSearch env (fillEnd n p) s).ret →
      min s.step (reachStep p.ftol mu L p.m.toNat / 2) ≤ (lineSearch env (fillEnd n p) s).step) ∧
    (p.minStep ≤ reachStep p.ftol mu L p.m.toNat → max 1 (1 / p.epsilon) ≤ p.maxStep →
      max 1 (1 / p.epsilon) ≤ reachStep p.ftol mu L p.m.toNat * 2 ^ (p.maxLinesearch.toNat - 1) →
      0 ≤ (lineSearch env (fillEnd n p) s).ret) := by
  obtain ⟨hck, hl, _⟩ := reach_loop h
  have ok := ok_of_check hck
  have hc' : (fillEnd n p).c = 0 := by rw [fillEnd_eq]; exact hc
  have hls' : (fillEnd n p).linesearch = LS_ARMIJO := by rw [fillEnd_eq]; exact hls
  obtain ⟨hd, hdd⟩ := direction_bounds hsq hG hc hm (by rw [hls]; intro h; cases h) h
  have hdp := descent_pos hG.mu_pos hG.L_pos p.m.toNat
  have hst := reach_step hsq.zero (fun _ => hsq.pos) h
  obtain ⟨hst1, _⟩ := reach_step_le hsq hc he h
  have hm1 : 0 < (fillEnd n p).maxLinesearch.toNat := by have := ok.maxLs; omega
  have hm' : (fillEnd n p).maxLinesearch = ((0 + (fillEnd n p).maxLinesearch.toNat : Nat) : Int) := by
    have := ok.maxLs; omega
  have hdneg : dot s.g s.d ≤ 0 := by
    have := mul_nonneg hdp.le (dot_nonneg s.g)
    linarith
  have e : s.fx = (env.eval s.x).1 := by
    rw [hl.inv.f]
    unfold obj penalised
    rw [hc', zero_mul, add_zero]
  have hft : (fillEnd n p).ftol = p.ftol := by rw [fillEnd_eq]
  have hg := hl.inv.g
  have hacc := armijo_accepts hG hF s.x s.d (ftol := p.ftol)
    (lt_of_lt_of_le one_pos (le_max_left 1 (upper mu L p.m.toNat))) (by rw [← hg]; exact hdneg)
    (by rw [← hg]; exact hdd)
  rw [← hg, ← e, ← hft] at hacc
  obtain ⟨h1, h2⟩ := btLoop_armijo env hls' s.x s.d s.fx (dot s.g s.d) hacc (fillEnd n p).maxLinesearch.toNat 0
    s.step [] hst hm1 hm'
  unfold lineSearch
  rw [if_pos (feq_iff.2 hc'), if_neg (by rw [hls']; decide)]
  simp only [backtracking, vecdot_eq]
  rw [if_neg (not_le.2 hst), if_neg (not_lt.2 hdneg)]
  rw [hft] at h1 h2
  refine ⟨h1, fun ha hb hcc => h2 (by rw [fillEnd_eq]; exact ha) ?_ ?_⟩
  · rw [fillEnd_eq]; exact hst1.trans hb
  · rw [show (fillEnd n p).maxLinesearch = p.maxLinesearch by rw [fillEnd_eq]]
    exact hst1.trans hcc

/-- The decrease in an iteration after the first. -/
theorem decrease_armijo {env : Env n σ K} (hsq : IsSqrt env.sqrt) {mu L : K}
    (hG : StrongSmooth (fun x => (env.eval x).2) mu L)
    (hF : ConvexGrad (fun x => (env.eval x).1) (fun x => (env.eval x).2)) {p : Par K} (hc : p.c = 0) (hm : 1 ≤ p.m)
    (hls : p.linesearch = 1) (hf1 : p.ftol < 1) (he : 0 < p.epsilon)
    {x0 : Fin n → K} {cb : σ} {s : St n σ K} (h : Reach env p x0 cb s) (h1 : 1 ≤ s.reports.length)
    (h0 : 0 ≤ (lineSearch env (fillEnd n p) s).ret) :
    (lineSearch env (fillEnd n p) s).f ≤ s.fx -
      p.ftol * min 1 (reachStep p.ftol mu L p.m.toNat / 2) * descent mu L p.m.toNat * p.epsilon ^ 2 := by
  obtain ⟨hck, hl, _⟩ := reach_loop h
  have ok := ok_of_check hck
  have hc' : (fillEnd n p).c = 0 := by rw [fillEnd_eq]; exact hc
  obtain ⟨hd, _⟩ := direction_bounds hsq hG hc hm (by rw [hls]; intro h; cases h) h
  have hgg := reach_gradient hsq hc he h
  have hdp := descent_pos hG.mu_pos hG.L_pos p.m.toNat
  have hst := (armijo_search hsq hG hF hc hm hls hf1 he h).1 h0
  rw [(reach_step_le hsq hc he h).2 (fun h => by rw [h] at h1; simp at h1)] at hst
  refine (search_decrease ok hc' h0 hdp.le hd hst).trans ?_
  have hf : (fillEnd n p).ftol = p.ftol := by rw [fillEnd_eq]
  have hf0 := ok.ftol
  rw [hf] at hf0 ⊢
  have hT := reachStep_pos (mu := mu) hf1 hG.L_pos p.m.toNat
  have h1 : 0 ≤ p.ftol * min 1 (reachStep p.ftol mu L p.m.toNat / 2) * descent mu L p.m.toNat :=
    mul_nonneg (mul_nonneg hf0 (le_min zero_le_one (by linarith))) hdp.le
  have h2 := mul_le_mul_of_nonneg_left hgg.le h1
  linarith

/-- A point with a small gradient is close to the stationary point. -/
theorem strong_distance {G : (Fin n → K) → Fin n → K} {mu L : K} (hG : StrongSmooth G mu L) (x z : Fin n → K)
    (hz : ∀ i, G z i = 0) : mu ^ 2 * dot (fun i => x i - z i) (fun i => x i - z i) ≤ dot (G x) (G x) := by
  have h1 := hG.mono x z
  have e : (fun i => G x i - G z i) = G x := by funext i; rw [hz i, sub_zero]
  rw [e] at h1
  have h2 := cauchy (G x) (fun i => x i - z i)
  have h3 := dot_nonneg (fun i => x i - z i)
  rcases h3.eq_or_lt with h4 | h4
  · rw [← h4, mul_zero]; exact dot_nonneg _
  · have h5 := pow_le_pow_left₀ (mul_nonneg hG.mu_pos.le h3) h1 2
    refine le_of_mul_le_mul_right ?_ h4
    nlinarith

/-- The results of runs in which no line search fails. -/
theorem codes_of_search {env : Env n σ K} (hpr : ∀ cb x g a b c d k l, (env.progress cb x g a b c d k l).1 = 0)
    {p : Par K} {x0 : Fin n → K} {cb : σ}
    (hls : ∀ s, Reach env p x0 cb s → 0 ≤ (lineSearch env (fillEnd n p) s).ret) {s : St n σ K} {o : Out n K}
    (h : Run env (fillEnd n p) s o) (hr : Reach env p x0 cb s) :
    o.ret = 0 ∨ (o.ret = 1 ∧ 0 < p.past) ∨ (o.ret = -997 ∧ p.maxIterations ≠ 0) := by
  induction h with
  | next h _ ih => exact ih (.next hr h)
  | @done s o h =>
    have h0 := hls s hr
    unfold iterate at h
    dsimp only at h
    rw [if_neg (not_lt.2 h0), if_neg (fun h => h (hpr _ _ _ _ _ _ _ _ _))] at h
    split_ifs at h with h3 h4 h5
    · cases h; exact .inl rfl
    · cases h
      refine .inr (.inl ⟨rfl, ?_⟩)
      have := h4.1
      rwa [fillEnd_eq] at this
    · cases h
      refine .inr (.inr ⟨rfl, ?_⟩)
      have := h5.1
      rwa [fillEnd_eq] at this

end Verif.Lbfgs
