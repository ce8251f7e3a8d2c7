import Verif.Props.LbfgsLoop
import Verif.Spec.LbfgsDir
import Mathlib.LinearAlgebra.Matrix.Notation
import Verif.Lemmas.LbfgsDir
/-!
The search direction of the minimiser (C68, C69, C83, C85).
-/
namespace Verif.Lbfgs
open Finset Spec Matrix
variable {n : Nat} {σ K : Type} [Field K] [LinearOrder K] [IsStrictOrderedRing K]

/-! ### C68 -/

/-- C68.  At every iteration after the first, the search direction is computed by the two-loop recursion
    from exactly the last `min(k, m)` correction pairs, newest first, where the pairs are the differences
    of consecutive accepted points and their gradients; in penalised coordinates it is then set to zero
    where it does not go against the pseudo-gradient. -/
theorem C68_memory (env : Env n σ K) (p : Par K) (x0 : Fin n → K) (cb : σ) (s : St n σ K)
    (h : Reach env p x0 cb s) (hm : 1 ≤ p.m) (hk : s.reports ≠ []) (stop : Int)
    (hs : stop = if p.stop < 0 then (n : Int) else p.stop) :
    let C := corrections (s.reports.map (fun q => (q.x, q.g)) ++ [(x0, (env.eval x0).2)])
    let g := if p.c = 0 then s.g else pseudoGradient s.x s.g p.c p.start stop
    let d := twoLoop (scale C) (C.take p.m.toNat) (fun i => - g i)
    C.length = s.reports.length ∧
    ∀ i, s.d i = if p.c ≠ 0 ∧ Penalised p.start stop i ∧ 0 ≤ d i * g i then 0 else d i := by
  intro C g d
  refine ⟨?_, ?_⟩
  · show (corrections _).length = _
    rw [corrections_length]
    simp
  have hC : C = corrections (pts env x0 s.reports) := rfl
  cases h with
  | start => exact absurd rfl hk
  | @next s0 _ h0 hi =>
    obtain ⟨hc, hl, hmem⟩ := reach_loop h0
    have hl' := loop_next (ok_of_check hc) hl hi
    have hg : g = slope env (fillEnd n p) s.x := by
      rw [← slope_of_loop hl']
      show (if p.c = 0 then s.g else pseudoGradient s.x s.g p.c p.start stop) = _
      unfold effGrad
      by_cases hc0 : p.c = 0
      · rw [if_pos hc0, if_pos (by rw [fillEnd_eq]; exact feq_iff.2 hc0)]
      · rw [if_neg hc0, if_neg (by rw [fillEnd_eq]; exact fun h => hc0 (feq_iff.1 h)),
          hl'.inv.pg (by rw [fillEnd_eq]; exact hc0), fillEnd_eq, hs]
    have heff := slope_of_loop hl'
    rw [← hg] at heff
    obtain ⟨_, _, _, pf, cb', rfl⟩ := iterate_inl hi
    obtain ⟨h1, _, _⟩ := newDirection_eq (p := fillEnd n p) (by rw [fillEnd_eq]; exact hm) hl.k (hmem hm)
      (lineSearch env (fillEnd n p) s0) (newPg (fillEnd n p) s0 (lineSearch env (fillEnd n p) s0))
      (rep env (fillEnd n p) s0 (lineSearch env (fillEnd n p) s0)) ⟨rfl, rfl⟩
    have hd : (newDirection (fillEnd n p) s0 (lineSearch env (fillEnd n p) s0)
        (newPg (fillEnd n p) s0 (lineSearch env (fillEnd n p) s0))).1 = d := by
      rw [h1]
      show twoLoop (scale C) (C.take (fillEnd n p).m.toNat) (fun i => - effGrad (fillEnd n p) _ _ i) = _
      rw [show (fillEnd n p).m = p.m by rw [fillEnd_eq]]
      show _ = twoLoop (scale C) (C.take p.m.toNat) (fun i => - g i)
      rw [← heff]
      rfl
    intro i
    simp only [update]
    rw [hd]
    by_cases hc0 : p.c = 0
    · rw [if_pos (by rw [fillEnd_eq]; exact feq_iff.2 hc0), if_neg (fun h => h.1 hc0)]
    · rw [if_neg (by rw [fillEnd_eq]; exact fun h => hc0 (feq_iff.1 h))]
      have hpg : g = newPg (fillEnd n p) s0 (lineSearch env (fillEnd n p) s0) := by
        rw [← heff]
        unfold effGrad
        rw [if_neg (by rw [fillEnd_eq]; exact fun h => hc0 (feq_iff.1 h))]
        rfl
      unfold constrain
      rw [← hpg, show (fillEnd n p).start = p.start by rw [fillEnd_eq],
        show (fillEnd n p).stop = stop by rw [fillEnd_eq, hs]]
      by_cases hpen : Penalised p.start stop i
      · rw [if_pos (show _ ∧ _ from hpen)]
        by_cases hle : 0 ≤ d i * g i
        · rw [if_pos hle, if_pos ⟨hc0, hpen, hle⟩]
        · rw [if_neg hle, if_neg (fun h => hle h.2.2)]
      · rw [if_neg (show ¬ (_ ∧ _) from hpen), if_neg (fun h => hpen h.2.1)]

/-- A quadratic objective. -/
def exQuad : Env 2 Unit ℚ :=
  ⟨fun v => v, fun x => (x 0 ^ 2 + 2 * x 1 ^ 2 + x 0 * x 1, ![2 * x 0 + x 1, 4 * x 1 + x 0]),
    fun s _ _ _ _ _ _ _ _ => (0, s)⟩

/-- Parameters for it, with room for one pair. -/
def exQuadPar : Par ℚ := ⟨1, 0, 0, 0, 4, 1, 20, 0, 100, 1/4, 1/2, 9/10, 0, 0, 0, -1⟩

/-- After two iterations with room for one pair: the direction comes from the newest pair, and not from
    both. -/
example : ∃ s, Reach exQuad exQuadPar ![4, 1] () s ∧
    (let C := corrections (s.reports.map (fun q => (q.x, q.g)) ++ [(![4, 1], (exQuad.eval ![4, 1]).2)])
     (C.length, decide (s.d = twoLoop (scale C) (C.take 1) (fun i => - s.g i)),
      decide (s.d = twoLoop (scale C) C (fun i => - s.g i)))) = (2, true, false) :=
  reach_of_steps _ _ _ _ 2 _ (by decide +kernel) (by decide +kernel) (by decide +kernel)

/-! ### C69 -/

/-- C69.  The two-loop recursion multiplies by the limited-memory BFGS matrix of the pairs. -/
theorem C69_product (gamma : K) (l : List ((Fin n → K) × (Fin n → K))) (q : Fin n → K) :
    twoLoop gamma l q = bfgs gamma l *ᵥ q := by
  induction l generalizing q with
  | nil =>
    funext i
    simp only [twoLoop, bfgs, smul_mulVec, one_mulVec, Pi.smul_apply, smul_eq_mul]
    ring
  | cons pr l ih =>
    obtain ⟨s, y⟩ := pr
    simp only [twoLoop, bfgs]
    rw [add_mulVec, ← mulVec_mulVec, ← mulVec_mulVec, rank1_mulVec, rank1_mulVec, smul_mulVec]
    have hv : (fun i => q i - dot s q / dot y s * y i) = fun i => q i - (dot y s)⁻¹ * dot s q * y i := by
      funext i; rw [div_eq_inv_mul]
    rw [ih, hv]
    funext i
    show _ = _ + (dot y s)⁻¹ * (vecMulVec s s *ᵥ q) i
    rw [outer_mulVec]
    simp only [div_eq_inv_mul]
    ring

/-- The matrix for the pair `s = (1, 0)`, `y = (2, 1)`, and a product with it. -/
example : bfgs (2 : ℚ) [(![1, 0], ![2, 1])] = !![1, -1; -1, 2] ∧
    twoLoop (2 : ℚ) [(![1, 0], ![2, 1])] ![3, 4] = ![-1, 5] := by decide +kernel

/-- C69.  The newest pair satisfies the secant equation: the matrix maps `y` to `s`. -/
theorem C69_secant (gamma : K) (l : List ((Fin n → K) × (Fin n → K))) (s y : Fin n → K)
    (h : dot y s ≠ 0) : bfgs gamma ((s, y) :: l) *ᵥ y = s := by
  rw [← C69_product]
  have hz : ∀ (l : List ((Fin n → K) × (Fin n → K))), twoLoop gamma l (fun _ => 0) = fun _ => 0 := by
    intro l
    rw [C69_product]
    exact mulVec_zero _
  have ha : dot s y / dot y s = 1 := by rw [dot_comm s y, div_self h]
  funext i
  simp only [twoLoop, ha, one_mul, sub_self, hz]
  simp [dot]

/-- C69.  With positive curvatures and scaling the matrix is positive definite. -/
theorem C69_positive (gamma : K) (hg : 0 < gamma) (l : List ((Fin n → K) × (Fin n → K)))
    (hl : ∀ pr ∈ l, 0 < dot pr.2 pr.1) (q : Fin n → K) (hq : q ≠ 0) : 0 < dot q (bfgs gamma l *ᵥ q) := by
  rw [← C69_product]
  induction l generalizing q with
  | nil =>
    have : dot q (twoLoop gamma [] q) = gamma * dot q q := by
      unfold twoLoop dot
      rw [mul_sum]
      exact sum_congr rfl fun i _ => by ring
    rw [this]
    apply mul_pos hg
    obtain ⟨i, hi⟩ := Function.ne_iff.1 hq
    exact sum_pos' (fun i _ => mul_self_nonneg _) ⟨i, mem_univ _, mul_self_pos.2 hi⟩
  | cons pr l ih =>
    obtain ⟨s, y⟩ := pr
    have hys : 0 < dot y s := hl _ (List.mem_cons_self ..)
    set a := dot s q / dot y s with ha
    set v : Fin n → K := fun i => q i - a * y i with hv
    set r := twoLoop gamma l v with hr
    have he : dot q (twoLoop gamma ((s, y) :: l) q) = dot v r + dot s q ^ 2 / dot y s := by
      have h1 : twoLoop gamma ((s, y) :: l) q = fun i => r i + (a - dot y r / dot y s) * s i := rfl
      have h2 : dot v r = dot q r - a * dot y r := by
        rw [dot_comm v r, dot_comm q r, dot_comm y r, hv]
        exact dot_sub r q y a
      rw [h1, dot_add, h2, dot_comm q s, ha]
      field_simp
      ring
    rw [he]
    by_cases hv0 : v = 0
    · have hsq : dot s q ≠ 0 := by
        intro h0
        apply hq
        rw [h0, zero_div] at ha
        funext i
        have := congrFun hv0 i
        rw [hv] at this
        simp only [ha, zero_mul, sub_zero] at this
        exact this
      have h0 : dot v r = 0 := by rw [hv0]; simp [dot]
      rw [h0, zero_add]
      positivity
    · have := ih (fun pr h => hl pr (List.mem_cons_of_mem _ h)) v hv0
      have h2 : 0 ≤ dot s q ^ 2 / dot y s := by positivity
      linarith

/-- C69.  So the direction of an iteration is a descent direction for the gradient, or the pseudo-gradient
    of a penalised problem, whenever the stored curvatures are positive and that gradient is not zero. -/
theorem C69_descent (env : Env n σ K) (p : Par K) (x0 : Fin n → K) (cb : σ) (s : St n σ K)
    (h : Reach env p x0 cb s) (hm : 1 ≤ p.m) (hk : s.reports ≠ []) (stop : Int)
    (hs : stop = if p.stop < 0 then (n : Int) else p.stop) (g : Fin n → K)
    (hg : g = if p.c = 0 then s.g else pseudoGradient s.x s.g p.c p.start stop) (hg0 : g ≠ 0)
    (hys : ∀ pr ∈ corrections (s.reports.map (fun q => (q.x, q.g)) ++ [(x0, (env.eval x0).2)]),
      0 < dot pr.2 pr.1) : dot g s.d < 0 := by
  obtain ⟨hlen, hd⟩ := C68_memory env p x0 cb s h hm hk _ hs
  rw [← hg] at hd
  set C := corrections (s.reports.map (fun q => (q.x, q.g)) ++ [(x0, (env.eval x0).2)]) with hC
  set d := twoLoop (scale C) (C.take p.m.toNat) (fun i => - g i) with hdd
  have hd' : d = bfgs (scale C) (C.take p.m.toNat) *ᵥ (-g) := by
    rw [← C69_product]; rfl
  have hsc : 0 < scale C := by
    rcases hCl : C with _ | ⟨⟨sv, yv⟩, l⟩
    · exact one_pos
    · have h1 : 0 < dot yv sv := hys (sv, yv) (by rw [hCl]; exact List.mem_cons_self ..)
      apply div_pos h1
      refine lt_of_le_of_ne (sum_nonneg fun i _ => mul_self_nonneg _) (Ne.symm fun h0 => ?_)
      have h2 : ∀ i, yv i = 0 := fun i => by
        have := (sum_eq_zero_iff_of_nonneg fun i _ => mul_self_nonneg (yv i)).1 h0 i (mem_univ _)
        exact mul_self_eq_zero.1 this
      have h3 : dot yv sv = 0 := sum_eq_zero fun i _ => by rw [h2 i, zero_mul]
      exact h1.ne' h3
  have := C69_positive (scale C) hsc (C.take p.m.toNat)
    (fun pr hpr => hys pr (List.mem_of_mem_take hpr)) (-g) (neg_ne_zero.2 hg0)
  rw [← hd'] at this
  have h2 : dot (-g) d = - dot g d := by
    unfold dot
    rw [← sum_neg_distrib]
    exact sum_congr rfl fun i _ => by rw [Pi.neg_apply, neg_mul]
  have h3 : dot g s.d ≤ dot g d := by
    unfold dot
    apply sum_le_sum
    intro i _
    rw [hd i]
    split_ifs with hi
    · rw [mul_zero, mul_comm]; exact hi.2.2
    · exact le_refl _
  linarith

/-- A state with two pairs meeting the conditions. -/
example : ∃ s, Reach exQuad exQuadPar ![4, 1] () s ∧
    (s.reports.length, decide (s.g = 0),
      (corrections (s.reports.map (fun q => (q.x, q.g)) ++ [(![4, 1], (exQuad.eval ![4, 1]).2)])).all
        (fun pr => decide (0 < dot pr.2 pr.1)), decide (dot s.g s.d < 0)) = (2, false, true, true) :=
  reach_of_steps _ _ _ _ 2 _ (by decide +kernel) (by decide +kernel) (by decide +kernel)

/-! ### C83 -/

/-- C83.  A variable on which the objective does not depend (its partial derivative is zero everywhere)
    keeps its starting value, if it is not penalised or starts at zero. -/
theorem C83_unused (env : Env n σ K) (p : Par K) (hm : 1 ≤ p.m) (x0 : Fin n → K) (cb : σ) (o : Out n K)
    (h : Lbfgs env p x0 cb o) (i : Fin n) (hi : ∀ x, (env.eval x).2 i = 0) (stop : Int)
    (hs : stop = if p.stop < 0 then (n : Int) else p.stop)
    (hx : p.c = 0 ∨ ¬ Penalised p.start stop i ∨ x0 i = 0) :
    o.x i = x0 i ∧ ∀ q ∈ o.reports, q.x i = x0 i := by
  have hrun : ∀ {s : St n σ K} {o : Out n K}, check n p = none → Run env (fillEnd n p) s o →
      Loop env (fillEnd n p) x0 s → Mem env (fillEnd n p) x0 s → Fixed i (x0 i) s →
      o.x i = x0 i ∧ ∀ q ∈ o.reports, q.x i = x0 i := by
    intro s o hc h
    have ok := ok_of_check hc
    have hx' : (fillEnd n p).c = 0 ∨ ¬ Penalised (fillEnd n p).start (fillEnd n p).stop i ∨ x0 i = 0 := by
      rw [fillEnd_eq]; subst hs; exact hx
    have hm' : 1 ≤ (fillEnd n p).m := by rw [fillEnd_eq]; exact hm
    induction h with
    | next h _ ih =>
      intro hl hmem hf
      exact ih (loop_next ok hl h) (mem_next hm' hl.k hmem h) (fixed_next ok hm' hi hx' hl hmem hf h)
    | @done s o h =>
      intro hl hmem hf
      rcases iterate_inr h with ⟨_, rfl⟩ | ⟨h0, h1, _, h2, _⟩
      · exact ⟨hf.x, hf.reports⟩
      · have hxi := fixed_search hf hx' (lineSearch_good ok s h0)
        rw [h1, h2]
        refine ⟨hxi, fun q hq => ?_⟩
        rcases List.mem_cons.1 hq with rfl | hq
        · exact hxi
        · exact hf.reports q hq
  cases h with
  | rejected => exact ⟨rfl, fun q hq => by cases hq⟩
  | already => exact ⟨rfl, fun q hq => by cases hq⟩
  | run hc _ hr =>
    refine hrun hc hr (loop_start _ _ _ _) (mem_start _ _ _ _) ⟨rfl, ?_, fun q hq => by cases hq⟩
    have h1 := congrFun (slope_of_loop (loop_start env (fillEnd n p) x0 cb)) i
    have h2 : slope env (fillEnd n p) x0 i = 0 := slope_zero (ok_of_check hc) (hi _)
      (by rw [fillEnd_eq]; subst hs; exact hx)
    show - effGrad (fillEnd n p) (start env (fillEnd n p) x0 cb).g (start env (fillEnd n p) x0 cb).pg i = 0
    rw [h1]
    exact neg_eq_zero.2 h2

/-- The second variable of the example stays at 5 while the first one moves. -/
example : ∃ o, Lbfgs { exBad with sqrt := fun v => v } { exBadPar with start := 0, stop := 1 } ![2, 5] () o ∧
    (o.x 1, o.reports.map (fun q => q.x 0 != 2)) = (5, [true, true]) := by
  refine lbfgs_of_fuel _ _ _ _ _ 5 _ (by decide +kernel) (by decide +kernel) (by decide +kernel)

/-! ### C85 -/

/-- C85 (with curvature).  At every iteration the search direction is a strict descent direction for the
    gradient, or the pseudo-gradient of a penalised problem, the step is positive, and all curvatures are
    positive, so that no division by zero occurs. -/
theorem C85_descent_partial (env : Env n σ K) (h0 : env.sqrt 0 = 0) (hpos : ∀ v, 0 < v → 0 < env.sqrt v)
    (p : Par K) (hm : 1 ≤ p.m) (hw : Curved env p) (x0 : Fin n → K) (cb : σ) (s : St n σ K)
    (h : Reach env p x0 cb s) (stop : Int) (hs : stop = if p.stop < 0 then (n : Int) else p.stop) :
    dot (if p.c = 0 then s.g else pseudoGradient s.x s.g p.c p.start stop) s.d < 0 ∧ 0 < s.step ∧
    ∀ pr ∈ corrections (s.reports.map (fun q => (q.x, q.g)) ++ [(x0, (env.eval x0).2)]),
      0 < dot pr.2 pr.1 := by
  have hsl : ∀ s : St n σ K, Loop env (fillEnd n p) x0 s →
      (if p.c = 0 then s.g else pseudoGradient s.x s.g p.c p.start stop) = effGrad (fillEnd n p) s.g s.pg := by
    intro s hl
    rw [slope_of_loop hl, hl.inv.g]
    unfold slope
    rw [fillEnd_eq, hs]
  have hw' : Curved env (fillEnd n p) := by rw [fillEnd_eq]; exact hw
  induction h with
  | start hck ha =>
    have hl := loop_start env (fillEnd n p) x0 cb
    have hg := not_converged_ne h0 (ok_of_check hck).eps ha
    rw [hsl _ hl]
    set g := effGrad (fillEnd n p) (start env (fillEnd n p) x0 cb).g (start env (fillEnd n p) x0 cb).pg with hgd
    have hd : (start env (fillEnd n p) x0 cb).d = fun i => - g i := rfl
    have hdd : dot (start env (fillEnd n p) x0 cb).d (start env (fillEnd n p) x0 cb).d = dot g g := by
      rw [hd]; exact sum_congr rfl fun i _ => by ring
    refine ⟨?_, ?_, fun pr hpr => by cases hpr⟩
    · rw [hd]
      have h1 := dot_self_pos hg
      have h2 : dot g (fun i => - g i) = - dot g g := by
        unfold dot
        rw [← sum_neg_distrib]
        exact sum_congr rfl fun i _ => by ring
      rw [h2]
      linarith
    · show 0 < 1 / vec2norm env.sqrt (start env (fillEnd n p) x0 cb).d
      unfold vec2norm
      rw [vecdot_eq, hdd]
      exact one_div_pos.2 (hpos _ (dot_self_pos hg))
  | @next s s' hr hi ih =>
    obtain ⟨hck, hl, _⟩ := reach_loop hr
    have ok := ok_of_check hck
    have hl' := loop_next ok hl hi
    obtain ⟨ihd, ihs, ihc⟩ := ih
    have hr' : Reach env p x0 cb s' := .next hr hi
    have hit := iterate_inl hi
    have hg := lineSearch_good ok s hit.1
    rw [hsl _ hl] at ihd
    have hys := curvature_pos ok hw' (fun hc h => armijo_step ok hc h s hit.1) hl.inv ihd hg
    have hgne : effGrad (fillEnd n p) s'.g s'.pg ≠ 0 := by
      obtain ⟨_, hnc, _, pf, cb', rfl⟩ := hit
      exact not_converged_ne h0 ok.eps hnc
    have hrep : s'.reports = rep env (fillEnd n p) s (lineSearch env (fillEnd n p) s) :: s.reports := by
      obtain ⟨_, _, _, pf, cb', rfl⟩ := hit
      rfl
    have hcur : ∀ pr ∈ corrections (s'.reports.map (fun q => (q.x, q.g)) ++ [(x0, (env.eval x0).2)]),
        0 < dot pr.2 pr.1 := by
      rw [hrep]
      have hhead : (s.reports.map (fun q => (q.x, q.g)) ++ [(x0, (env.eval x0).2)]).head? =
          some (s.x, s.g) := by
        rw [hl.inv.g, hl.hist.pt]
        rcases hrs : s.reports with _ | ⟨q, l⟩
        · rfl
        · show some (q.x, q.g) = some (q.x, (env.eval q.x).2)
          rw [(hl.hist.good q (by rw [hrs]; exact List.mem_cons_self ..)).2.1]
      rcases hp : s.reports.map (fun q => (q.x, q.g)) ++ [(x0, (env.eval x0).2)] with _ | ⟨a, l⟩
      · rw [hp] at hhead; cases hhead
      · rw [hp] at hhead ihc
        have ha : a = (s.x, s.g) := Option.some.inj hhead
        subst ha
        intro pr hpr
        rw [List.map_cons, List.cons_append, hp] at hpr
        rcases List.mem_cons.1 hpr with rfl | hpr
        · exact hys
        · exact ihc pr hpr
    refine ⟨C69_descent env p x0 cb s' hr' hm (by rw [hrep]; exact List.cons_ne_nil _ _) stop hs _ rfl
      (by rw [hsl _ hl']; exact hgne) hcur, ?_, hcur⟩
    obtain ⟨_, _, _, pf, cb', rfl⟩ := hit
    exact one_pos

/-- C85.  So such a run never fails for an ascent direction or a step that is not positive; a penalised
    run never does, whatever the objective. -/
theorem C85_codes_partial (env : Env n σ K) (h0 : env.sqrt 0 = 0) (hpos : ∀ v, 0 < v → 0 < env.sqrt v)
    (p : Par K) (hm : 1 ≤ p.m) (hw : p.c ≠ 0 ∨ Curved env p) (x0 : Fin n → K) (cb : σ) (o : Out n K)
    (h : Lbfgs env p x0 cb o)
    (hp : ∀ cb x g a b c d k l, (env.progress cb x g a b c d k l).1 ∉ [-994, -995]) :
    o.ret ∉ [-994, -995] := by
  have hrun : ∀ {s : St n σ K} {o : Out n K}, Run env (fillEnd n p) s o → Reach env p x0 cb s →
      o.ret ∉ [-994, -995] := by
    intro s o h
    induction h with
    | next h _ ih => exact fun hr => ih (.next hr h)
    | @done s o h =>
      intro hr
      obtain ⟨hck, hl, _⟩ := reach_loop hr
      have ok := ok_of_check hck
      have hst := reach_step h0 hpos hr
      have hm1 : 0 < (fillEnd n p).maxLinesearch.toNat := by have := ok.maxLs; omega
      have hm' : (fillEnd n p).maxLinesearch = ((0 + (fillEnd n p).maxLinesearch.toNat : Nat) : Int) := by
        have := ok.maxLs; omega
      rcases iterate_inr h with ⟨h1, rfl⟩ | ⟨_, _, _, _, hcode⟩
      · show (lineSearch env (fillEnd n p) s).ret ∉ _
        unfold lineSearch at h1 ⊢
        by_cases hc : p.c = 0
        · have hc' : (fillEnd n p).c = 0 := by rw [fillEnd_eq]; exact hc
          obtain ⟨hd, _, _⟩ := C85_descent_partial env h0 hpos p hm (hw.resolve_left fun h => h hc) x0 cb s hr _ rfl
          rw [if_pos hc] at hd
          rw [if_pos (feq_iff.2 hc')] at h1 ⊢
          by_cases hlm : (fillEnd n p).linesearch = LS_MORETHUENTE
          · rw [if_pos hlm] at h1 ⊢
            simp only [moreThuente, vecdot_eq] at h1 ⊢
            rw [if_neg (not_le.2 hst), if_neg (not_lt.2 hd.le)] at h1 ⊢
            have := (mtLoop_spec env (fillEnd n p) s.x s.d s.fx (dot s.g s.d) ok.minStep ok.maxStep
              (fillEnd n p).maxLinesearch.toNat 0
              ⟨0, s.fx, dot s.g s.d, 0, s.fx, dot s.g s.d, s.step, false⟩ true
              ((fillEnd n p).maxStep - (fillEnd n p).minStep)
              (const 2 1 * ((fillEnd n p).maxStep - (fillEnd n p).minStep)) 0 [] (le_refl _) hm1 hm').2.2.2.2.2.2 h1
            rcases this with h | h | h | h | h <;> rw [h] <;> decide
          · rw [if_neg hlm] at h1 ⊢
            simp only [backtracking, vecdot_eq] at h1 ⊢
            rw [if_neg (not_le.2 hst), if_neg (not_lt.2 hd.le)] at h1 ⊢
            have := ((btLoop_spec env (fillEnd n p) s.x s.d s.fx (dot s.g s.d)
              (fillEnd n p).maxLinesearch.toNat 0 s.step [] hst hm1 hm').2.2.2.2 h1).1
            rcases this with h | h | h <;> rw [h] <;> decide
        · have hc' : (fillEnd n p).c ≠ 0 := by rw [fillEnd_eq]; exact hc
          rw [if_neg fun h => hc' (feq_iff.1 h)] at h1 ⊢
          simp only [backtrackingOwlqn] at h1 ⊢
          rw [if_neg (not_le.2 hst)] at h1 ⊢
          have := ((owlqnLoop_spec env (fillEnd n p) s.x s.pg
            (fun i => if feq (s.x i) 0 then -s.pg i else s.x i) s.d s.fx
            (fillEnd n p).maxLinesearch.toNat 0 s.step [] hst hm1 hm').2.2.2.2.2.2.2.2 h1).1
          rcases this with h | h | h <;> rw [h] <;> decide
      · rcases hcode with ⟨_, cb, x, g, a, b, c, d, k, l, h1⟩ | ⟨h1, _⟩ | h1 | ⟨h1, _⟩
        · rw [h1]; exact hp _ _ _ _ _ _ _ _ _
        · rw [h1]; decide
        · rw [h1]; decide
        · rw [h1]; decide
  cases h with
  | @rejected code hck =>
    have := violates_le (C71_code_partial p _ hck)
    simp only [List.mem_cons, List.not_mem_nil, or_false]
    omega
  | already => exact (by decide : ALREADY_MINIMIZED ∉ [-994, -995])
  | run hck ha hr => exact hrun hr (.start hck ha)

/-- The objective `x⁴ / 4` with the default search. -/
def exQuartic : Env 1 Unit ℚ :=
  ⟨fun v => v, fun x => (x 0 ^ 4 / 4, fun _ => x 0 ^ 3), fun s _ _ _ _ _ _ _ _ => (0, s)⟩

/-- The conditions hold for it with the 'wolfe' search, and the run goes on to the iteration limit. -/
example : exQuartic.sqrt 0 = 0 ∧ (∀ v, 0 < v → 0 < exQuartic.sqrt v) ∧
    Curved exQuartic ⟨5, 0, 0, 0, 3, 2, 20, 0, 100, 1/4, 1/2, 9/10, 0, 0, 0, -1⟩ ∧
    ∃ o, Lbfgs exQuartic ⟨5, 0, 0, 0, 3, 2, 20, 0, 100, 1/4, 1/2, 9/10, 0, 0, 0, -1⟩ ![2] () o ∧
      (o.ret, o.reports.map (·.k)) = (-997, [3, 2, 1]) :=
  ⟨rfl, fun _ h => h, .inl ⟨rfl, .inl rfl⟩, lbfgs_of_fuel _ _ _ _ _ 5 _ (by decide +kernel) (by decide +kernel) (by decide +kernel)⟩

/-- The conditions hold for the strictly convex `exQuad` with a penalty, too; after two iterations
    the direction still goes down. -/
example : (({ exQuadPar with c := 1 } : Par ℚ).c ≠ 0 ∧ Curved exQuad { exQuadPar with c := 1 }) ∧
    ∃ s, Reach exQuad { exQuadPar with c := 1, linesearch := 2 } ![4, 1] () s ∧
      (s.reports.length, decide (dot (pseudoGradient s.x s.g 1 0 2) s.d < 0)) = (2, true) := by
  refine ⟨⟨by decide, .inr ⟨.inl (by decide), fun x y hxy => ?_⟩⟩,
    reach_of_steps _ _ _ _ 2 _ (by decide +kernel) (by decide +kernel) (by decide +kernel)⟩
  have h : x 0 - y 0 ≠ 0 ∨ x 1 - y 1 ≠ 0 := by
    by_contra hn
    push Not at hn
    exact hxy (funext fun i => by fin_cases i <;> simp <;> linarith [hn.1, hn.2])
  have h2 : dot (fun i => (exQuad.eval x).2 i - (exQuad.eval y).2 i) (fun i => x i - y i) =
      (x 0 - y 0) ^ 2 + ((x 0 - y 0) + (x 1 - y 1)) ^ 2 + 3 * (x 1 - y 1) ^ 2 := by
    simp [dot, exQuad, Fin.sum_univ_two]; ring
  rw [h2]
  rcases h with h | h <;> positivity

/-- C85 is false in general: with 'armijo' on the objective `-x² / 2`, the second direction is an ascent
    direction and `fmin_lbfgs` raises `LBFGSError`. -/
theorem C85_negation : ∃ tr, Fmin
    (⟨Rat.sqrt, fun x => (.ok (- x 0 ^ 2 / 2), fun _ => - x 0), fun s _ _ _ _ _ _ _ _ => (.ok none, s)⟩ :
      Callables 1 Unit ℚ) (exArgs 0 0) (fun _ => 1) ()
    (.raised .lbfgsError (some "The current search direction increases the objective function value.")) tr := by
  obtain ⟨o, ho, hr⟩ := lbfgs_of_fuel (fun o => o.ret)
    (Callables.env (⟨Rat.sqrt, fun x => (.ok (- x 0 ^ 2 / 2), fun _ => - x 0),
      fun s _ _ _ _ _ _ _ _ => (.ok none, s)⟩ : Callables 1 Unit ℚ))
    { (exArgs 0 0).par with linesearch := 1 } (fun _ => 1) () 3 (-994)
    (by decide +kernel) (by decide +kernel) (by decide +kernel)
  have hf : finish o = .raised .lbfgsError
      (some "The current search direction increases the objective function value.") := by
    simp only [finish, hr]; rfl
  exact ⟨_, hf ▸ Fmin.run (p := { (exArgs 0 0).par with linesearch := 1 }) rfl ho⟩

end Verif.Lbfgs
