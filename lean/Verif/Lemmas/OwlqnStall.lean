import Verif.Lemmas.OwlqnConverge
import Mathlib.Analysis.Real.Sqrt
import Mathlib.Tactic.NormNum
/-! An objective on which the search with a penalty fails far from the minimiser. -/
namespace Verif.Lbfgs
open Finset Spec

/-- The objective `x₀²/6 + 5e/12 x₀ + x₁² - (3 - e) x₁` over the reals. -/
noncomputable def exStall (e : ℝ) : Env 2 Unit ℝ :=
  ⟨Real.sqrt, fun x => (x 0 ^ 2 / 6 + 5 * e / 12 * x 0 + x 1 ^ 2 - (3 - e) * x 1,
    ![x 0 / 3 + 5 * e / 12, 2 * x 1 - (3 - e)]), fun s _ _ _ _ _ _ _ _ => (0, s)⟩

theorem exStall_strong (e : ℝ) : StrongSmooth (fun x => ((exStall e).eval x).2) (1 / 3) 2 := by
  refine ⟨by norm_num, two_pos, fun x y => ?_, fun x y => ?_⟩
  · simp only [dot, exStall, Fin.sum_univ_two, Matrix.cons_val_zero, Matrix.cons_val_one]
    nlinarith [sq_nonneg (x 1 - y 1)]
  · simp only [dot, exStall, Fin.sum_univ_two, Matrix.cons_val_zero, Matrix.cons_val_one]
    nlinarith [sq_nonneg (x 0 - y 0)]

theorem exStall_convex (e : ℝ) :
    ConvexGrad (fun x => ((exStall e).eval x).1) (fun x => ((exStall e).eval x).2) := by
  intro x y
  simp only [dot, exStall, Fin.sum_univ_two, Matrix.cons_val_zero, Matrix.cons_val_one]
  nlinarith [sq_nonneg (x 0 - y 0), sq_nonneg (x 1 - y 1)]

theorem exStall_sqrt (e : ℝ) : IsSqrt (exStall e).sqrt := fun v hv => ⟨Real.sqrt_nonneg v, Real.mul_self_sqrt hv⟩

theorem exStall_bound {e : ℝ} (h0 : 0 < e) (h1 : e ≤ 1) (x : Fin 2 → ℝ) : -10 ≤ ((exStall e).eval x).1 := by
  simp only [exStall]
  nlinarith [sq_nonneg (x 0 + 5 * e / 4), sq_nonneg (x 1 - (3 - e) / 2)]

/-- The parameters: `max_linesearch = N`, `min_step = 0`, `ftol = 1/4`, `epsilon = 1/10`, a penalty on both
    variables with coefficient 1. -/
noncomputable def exStallPar (N : Nat) : Par ℝ := ⟨6, 1/10, 0, 0, 0, 2, N, 0, 100, 1/4, 9/10, 9/10, 0, 1, 0, 2⟩

theorem exStall_check {N : Nat} (hN : 1 ≤ N) : check 2 (exStallPar N) = none := by
  refine (C71_accepted_partial _).2 fun e he => ?_
  unfold exStallPar at he
  cases he <;> first | omega | (norm_num at *; done) | (simp only at *; norm_num at *; omega)

theorem exStall_fill (N : Nat) : fillEnd 2 (exStallPar N) = exStallPar N := by
  unfold fillEnd exStallPar
  rw [if_neg (show ¬ (2 : Int) < 0 by decide)]

theorem iterate_goes {n : Nat} {σ : Type} {env : Env n σ ℝ} {p : Par ℝ} {s : St n σ ℝ}
    (h : 0 ≤ (lineSearch env p s).ret) (hp : ∀ cb x g a b c d k l, (env.progress cb x g a b c d k l).1 = 0)
    (hc : ¬ converged p (vec2norm env.sqrt (lineSearch env p s).x)
      (vec2norm env.sqrt (effGrad p (lineSearch env p s).g (newPg p s (lineSearch env p s)))))
    (hpast : p.past = 0) (hit : p.maxIterations = 0) : ∃ s', iterate env p s = .inl s' := by
  unfold iterate
  dsimp only
  rw [if_neg (not_lt.2 h), if_neg (fun h => h (hp _ _ _ _ _ _ _ _ _)), if_neg hc,
    if_neg (fun h => by unfold deltaStop at h; rw [hpast] at h; exact absurd h.1 (lt_irrefl _)),
    if_neg (fun h => h.1 hit)]
  exact ⟨_, rfl⟩

theorem vec2norm_two (a b r : ℝ) (hr : 0 ≤ r) (h : r * r = a * a + b * b) : vec2norm Real.sqrt ![a, b] = r := by
  unfold vec2norm
  rw [vecdot_eq, Real.sqrt_eq_iff_mul_self_eq (dot_nonneg _) hr]
  simp only [dot, Fin.sum_univ_two, Matrix.cons_val_zero, Matrix.cons_val_one]
  exact h.symm

theorem not_converged_two {p : Par ℝ} (he : p.epsilon = 1/10) (x g : Fin 2 → ℝ) (hx : dot x x ≤ 25) (hg : 1 ≤ dot g g) :
    ¬ converged p (vec2norm Real.sqrt x) (vec2norm Real.sqrt g) := by
  unfold converged vec2norm
  rw [vecdot_eq, vecdot_eq, he, not_le]
  have h1 : Real.sqrt (dot x x) ≤ 5 := Real.sqrt_le_iff.2 ⟨by norm_num, by linarith⟩
  have h2 : 1 ≤ Real.sqrt (dot g g) := Real.one_le_sqrt.2 hg
  have h3 : (if Real.sqrt (dot x x) < 1 then (1:ℝ) else Real.sqrt (dot x x)) ≤ 5 := by
    split_ifs <;> linarith
  have h4 : 0 < (if Real.sqrt (dot x x) < 1 then (1:ℝ) else Real.sqrt (dot x x)) := by
    split_ifs with h
    · exact one_pos
    · linarith
  rw [lt_div_iff₀ h4]
  linarith

section
variable {e : ℝ} {N : Nat}

theorem exStall_pg (x : Fin 2 → ℝ) (h0 : 0 < x 0) (h1 : 0 < x 1) :
    pseudoGradient x ((exStall e).eval x).2 1 0 2 = ![x 0 / 3 + 5 * e / 12 + 1, 2 * x 1 - (3 - e) + 1] := by
  funext i
  fin_cases i
  · simp [pseudoGradient, exStall, h0, h0.not_gt]
  · simp [pseudoGradient, exStall, h1, h1.not_gt]

theorem exStall_project (x d pg : Fin 2 → ℝ) (t : ℝ) (h0 : 0 < x 0) (h1 : 0 < x 1) :
    project (vecadd x d t) (fun i => if feq (x i) 0 then -pg i else x i) 0 2 =
      ![if x 0 + t * d 0 ≤ 0 then 0 else x 0 + t * d 0, if x 1 + t * d 1 ≤ 0 then 0 else x 1 + t * d 1] := by
  have key : ∀ a b : ℝ, 0 < b → (if (a * if feq b 0 then 1 else b) ≤ 0 then 0 else a) = if a ≤ 0 then 0 else a := by
    intro a b hb
    rw [if_neg (fun h => hb.ne' (feq_iff.1 h))]
    by_cases ha : a ≤ 0
    · rw [if_pos ha, if_pos (mul_nonpos_of_nonpos_of_nonneg ha hb.le)]
    · rw [if_neg ha, if_neg (not_le.2 (mul_pos (not_le.1 ha) hb))]
  have hp : ∀ i : Fin 2, 0 < x i → project (vecadd x d t) (fun i => if feq (x i) 0 then -pg i else x i) 0 2 i =
      if x i + t * d i ≤ 0 then 0 else x i + t * d i := by
    intro i hi
    rw [← key _ _ hi]
    unfold project vecadd
    rw [if_pos (by fin_cases i <;> simp)]
    simp only [if_neg (fun h => hi.ne' (feq_iff.1 h))]
  funext i
  fin_cases i
  · exact hp 0 h0
  · exact hp 1 h1

theorem exStall_l1 (x : Fin 2 → ℝ) : l1 0 2 x = |x 0| + |x 1| := by
  unfold l1
  rw [filter_true_of_mem (fun i _ => by fin_cases i <;> (unfold Penalised; simp)), Fin.sum_univ_two]

theorem exStall_obj (x : Fin 2 → ℝ) : obj (exStall e) (exStallPar N) x =
    x 0 ^ 2 / 6 + 5 * e / 12 * x 0 + x 1 ^ 2 - (3 - e) * x 1 + (|x 0| + |x 1|) := by
  show _ + 1 * l1 0 2 x = _
  rw [exStall_l1, one_mul]
  rfl

theorem exStall_start (h0 : 0 < e) :
    let s := start (exStall e) (exStallPar N) ![e + 3/5, 9/5] ()
    s.pg = ![6/5 + 3*e/4, 8/5 + e] ∧ s.d = ![-(6/5 + 3*e/4), -(8/5 + e)] ∧
      s.step = 1 / (2 + 5*e/4) := by
  intro s
  have hpg : s.pg = ![6/5 + 3*e/4, 8/5 + e] := by
    have h := (inv_start (exStall e) (exStallPar N) ![e + 3/5, 9/5] ()).pg one_ne_zero
    refine h.trans ?_
    refine (exStall_pg _ (show 0 < e + 3/5 by linarith) (show (0:ℝ) < 9/5 by norm_num)).trans ?_
    show ![(e + 3/5) / 3 + 5 * e / 12 + 1, 2 * (9/5) - (3 - e) + 1] = _
    congr 1
    · ring
    · congr 1; ring
  have hd : s.d = ![-(6/5 + 3*e/4), -(8/5 + e)] := by
    have : s.d = fun i => - s.pg i := by
      show (fun i => - effGrad _ _ s.pg i) = _
      unfold effGrad
      rw [if_neg (by rw [feq_iff]; exact one_ne_zero)]
    rw [this, hpg]
    funext i
    fin_cases i <;> rfl
  refine ⟨hpg, hd, ?_⟩
  show 1 / vec2norm Real.sqrt s.d = _
  rw [hd, vec2norm_two _ _ (2 + 5*e/4) (by linarith) (by ring)]

/-- The point after the first iteration is `(e, 1)`. -/
theorem exStall_first (h0 : 0 < e) (h1 : e ≤ 1) (hN : 1 ≤ N) :
    let s := start (exStall e) (exStallPar N) ![e + 3/5, 9/5] ()
    let r := lineSearch (exStall e) (exStallPar N) s
    r.ret = 1 ∧ r.x = ![e, 1] := by
  intro s r
  obtain ⟨hpg, hd, hst⟩ := exStall_start (e := e) (N := N) h0
  have hx : s.x = ![e + 3/5, 9/5] := rfl
  have hst' : (0:ℝ) < 2 + 5*e/4 := by linarith
  obtain ⟨M, rfl⟩ : ∃ M, N = M + 1 := ⟨N - 1, by omega⟩
  have hpr : project (vecadd s.x s.d s.step) (fun i => if feq (s.x i) 0 then -s.pg i else s.x i) 0 2 = ![e, 1] := by
    have e1 : (e + 3/5) + 1 / (2 + 5*e/4) * -(6/5 + 3*e/4) = e := by field_simp; ring
    have e2 : (9/5 : ℝ) + 1 / (2 + 5*e/4) * -(8/5 + e) = 1 := by field_simp; ring
    rw [exStall_project _ _ _ _ (show 0 < e + 3/5 by linarith) (show (0:ℝ) < 9/5 by norm_num), hx, hst, hd]
    show ![if (e + 3/5) + 1 / (2 + 5*e/4) * -(6/5 + 3*e/4) ≤ 0 then 0 else (e + 3/5) + 1 / (2 + 5*e/4) * -(6/5 + 3*e/4),
      if (9/5 : ℝ) + 1 / (2 + 5*e/4) * -(8/5 + e) ≤ 0 then 0 else (9/5 : ℝ) + 1 / (2 + 5*e/4) * -(8/5 + e)] = _
    rw [e1, e2, if_neg (not_le.2 h0), if_neg (not_le.2 one_pos)]
  have hfx : s.fx = obj (exStall e) (exStallPar (M + 1)) s.x := (inv_start _ _ _ _).f
  have key : r.ret = 1 ∧ r.x = ![e, 1] := by
    show (lineSearch _ _ s).ret = _ ∧ (lineSearch _ _ s).x = _
    unfold lineSearch backtrackingOwlqn
    rw [if_neg (by rw [feq_iff]; exact one_ne_zero), if_neg (by rw [not_le, hst]; positivity)]
    rw [show (exStallPar (M + 1)).maxLinesearch.toNat = M + 1 from rfl]
    have hv : ∀ x : Fin 2 → ℝ, (vsum fun i => (x i - s.x i) * s.pg i) = dot (fun i => x i - s.x i) s.pg :=
      fun x => vsum_eq _
    simp only [owlqnLoop, show (exStallPar (M + 1)).start = 0 from rfl, show (exStallPar (M + 1)).stop = 2 from rfl,
      hpr, show (exStallPar (M + 1)).ftol = 1/4 from rfl, show (exStallPar (M + 1)).c = 1 from rfl, x1norm_eq, hv]
    rw [if_pos]
    · exact ⟨rfl, rfl⟩
    · rw [hfx, hx, hpg, exStall_obj, exStall_l1]
      simp only [dot, Fin.sum_univ_two, exStall, Matrix.cons_val_zero, Matrix.cons_val_one]
      rw [abs_of_pos h0, abs_of_pos (by linarith : (0:ℝ) < e + 3/5), abs_of_pos (by norm_num : (0:ℝ) < 9/5), abs_one]
      nlinarith
  exact key

/-- The direction of the second iteration. -/
theorem exStall_second (h0 : 0 < e) (h1 : e ≤ 1) (hN : 1 ≤ N) :
    ∃ s : St 2 Unit ℝ, Reach (exStall e) (exStallPar N) ![e + 3/5, 9/5] () s ∧
      iterate (exStall e) (exStallPar N) (start (exStall e) (exStallPar N) ![e + 3/5, 9/5] ()) = .inl s ∧
      ¬ already (exStall e) (exStallPar N) (start (exStall e) (exStallPar N) ![e + 3/5, 9/5] ()) ∧
      s.x = ![e, 1] ∧ s.pg = ![1 + 3*e/4, e] ∧ s.step = 1 ∧ s.reports.length = 1 ∧
      s.d = ![-(437/455) - 355*e/364, -(116/455) - 60*e/91] := by
  obtain ⟨hpg0, _, _⟩ := exStall_start (e := e) (N := N) h0
  obtain ⟨hret, hrx⟩ := exStall_first (N := N) h0 h1 hN
  have hck := exStall_check hN
  have hfill := exStall_fill N
  have ok := ok_of_check hck
  rw [hfill] at ok
  set s0 := start (exStall e) (exStallPar N) ![e + 3/5, 9/5] () with hs0
  set r := lineSearch (exStall e) (exStallPar N) s0 with hr
  have hg := lineSearch_good ok s0 (by rw [← hr, hret]; decide)
  rw [← hr] at hg
  have hef : ∀ a b : Fin 2 → ℝ, effGrad (exStallPar N) a b = b := by
    intro a b
    unfold effGrad
    rw [if_neg (by rw [feq_iff]; exact one_ne_zero)]
  have hpg1 : newPg (exStallPar N) s0 r = ![1 + 3*e/4, e] := by
    unfold newPg
    rw [if_neg (by rw [feq_iff]; exact one_ne_zero), hg.g, hrx]
    refine (exStall_pg (e := e) _ (show 0 < e from h0) (show (0:ℝ) < 1 by norm_num)).trans ?_
    show ![e / 3 + 5 * e / 12 + 1, 2 * 1 - (3 - e) + 1] = _
    congr 1
    · ring
    · congr 1; ring
  have hna : ¬ already (exStall e) (exStallPar N) s0 := by
    unfold already
    rw [hef, hpg0]
    refine not_converged_two rfl _ _ ?_ ?_
    · show dot ![e + 3/5, 9/5] ![e + 3/5, 9/5] ≤ 25
      simp only [dot, Fin.sum_univ_two, Matrix.cons_val_zero, Matrix.cons_val_one]
      nlinarith
    · simp only [dot, Fin.sum_univ_two, Matrix.cons_val_zero, Matrix.cons_val_one]
      nlinarith
  obtain ⟨s, hs⟩ : ∃ s, iterate (exStall e) (exStallPar N) s0 = .inl s := by
    refine iterate_goes (by rw [← hr, hret]; decide) (fun _ _ _ _ _ _ _ _ _ => rfl) ?_ rfl rfl
    rw [← hr, hef, hpg1, hrx]
    refine not_converged_two rfl _ _ ?_ ?_
    · simp only [dot, Fin.sum_univ_two, Matrix.cons_val_zero, Matrix.cons_val_one]
      nlinarith
    · simp only [dot, Fin.sum_univ_two, Matrix.cons_val_zero, Matrix.cons_val_one]
      nlinarith
  have hreach : Reach (exStall e) (exStallPar N) ![e + 3/5, 9/5] () s := by
    refine .next (.start hck ?_) ?_
    · rw [hfill]; exact hna
    · rw [hfill]; exact hs
  refine ⟨s, hreach, hs, hna, ?_⟩
  have hmem := C68_memory (exStall e) (exStallPar N) _ () s hreach (by show (1:Int) ≤ 6; decide)
  obtain ⟨_, _, _, pf, cb, hup⟩ := iterate_inl hs
  rw [← hr] at hup
  have hrep : s.reports = [rep (exStall e) (exStallPar N) s0 r] := by rw [hup]; rfl
  have hsx : s.x = ![e, 1] := by rw [hup]; exact hrx
  have hsp : s.pg = ![1 + 3*e/4, e] := by rw [hup]; exact hpg1
  have hsg : s.g = ((exStall e).eval ![e, 1]).2 := by rw [hup]; show r.g = _; rw [hg.g, hrx]
  refine ⟨hsx, hsp, by rw [hup]; rfl, by rw [hrep]; rfl, ?_⟩
  obtain ⟨_, hd⟩ := hmem (by rw [hrep]; exact List.cons_ne_nil _ _) 2 rfl
  have hpgs : (if (exStallPar N).c = 0 then s.g else
      pseudoGradient s.x s.g (exStallPar N).c (exStallPar N).start 2) = ![1 + 3*e/4, e] := by
    rw [if_neg (show (exStallPar N).c ≠ 0 from one_ne_zero), ← hpg1]
    unfold newPg
    rw [if_neg (by rw [feq_iff]; exact one_ne_zero), hg.g, hrx, hsg, hsx]
    rfl
  have hC : corrections (s.reports.map (fun q => (q.x, q.g)) ++ [(![e + 3/5, 9/5], ((exStall e).eval ![e + 3/5, 9/5]).2)]) =
      [(![-(3/5), -(4/5)], ![-(1/5), -(8/5)])] := by
    rw [hrep]
    show [(fun i => r.x i - _, fun i => r.g i - _)] = _
    rw [hg.g, hrx]
    congr 2
    · funext i; fin_cases i
      · show e - (e + 3/5) = -(3/5); ring
      · show (1:ℝ) - 9/5 = -(4/5); ring
    · funext i; fin_cases i
      · show e / 3 + 5 * e / 12 - ((e + 3/5) / 3 + 5 * e / 12) = -(1/5); ring
      · show 2 * 1 - (3 - e) - (2 * (9/5) - (3 - e)) = -(8/5); ring
  simp only [hC, hpgs] at hd
  have htw : twoLoop (scale [((![-(3/5), -(4/5)] : Fin 2 → ℝ), (![-(1/5), -(8/5)] : Fin 2 → ℝ))])
      ([((![-(3/5), -(4/5)] : Fin 2 → ℝ), (![-(1/5), -(8/5)] : Fin 2 → ℝ))].take (exStallPar N).m.toNat)
      (fun i => - ![1 + 3*e/4, e] i) = ![-(437/455) - 355*e/364, -(116/455) - 60*e/91] := by
    rw [show (exStallPar N).m.toNat = 6 from rfl]
    funext i
    simp only [List.take, twoLoop, scale, dot, Fin.sum_univ_two, Matrix.cons_val_zero, Matrix.cons_val_one]
    fin_cases i
    · simp only [Fin.zero_eta, Matrix.cons_val_zero]
      norm_num
      ring
    · simp only [Fin.mk_one, Matrix.cons_val_one]
      norm_num
      ring
  rw [htw] at hd
  funext i
  rw [hd i, if_neg]
  rintro ⟨_, _, h⟩
  fin_cases i
  · change 0 ≤ (-(437/455) - 355*e/364) * (1 + 3*e/4) at h
    nlinarith
  · change 0 ≤ (-(116/455) - 60*e/91) * e at h
    nlinarith

/-- The second search fails. -/
theorem exStall_fails (hN : 1 ≤ N) : ∃ o, Lbfgs (exStall (1 / 2 ^ (2 * N + 4))) (exStallPar N)
    ![1 / 2 ^ (2 * N + 4) + 3/5, 9/5] () o ∧ o.ret = -998 ∧ o.x = ![1 / 2 ^ (2 * N + 4), 1] ∧ o.reports.length = 1 := by
  set e : ℝ := 1 / 2 ^ (2 * N + 4) with he
  have h0 : 0 < e := by positivity
  have h1 : e ≤ 1 := by
    rw [he, div_le_one (by positivity)]
    exact one_le_pow₀ (by norm_num)
  obtain ⟨s, hreach, hit, hna, hx, hpg, hst, hrep, hd⟩ := exStall_second (N := N) h0 h1 hN
  have hck := exStall_check hN
  have hfill := exStall_fill N
  obtain ⟨_, hl, _⟩ := reach_loop hreach
  rw [hfill] at hl
  have hsearch : (lineSearch (exStall e) (exStallPar N) s).ret = -998 := by
    unfold lineSearch backtrackingOwlqn
    rw [if_neg (by rw [feq_iff]; exact one_ne_zero), if_neg (by rw [not_le, hst]; exact one_pos)]
    refine owlqnLoop_stalls (exStall e) (exStallPar N) s.x s.pg _ s.d s.fx rfl _ 0 s.step [] (by rw [hst]; exact one_pos)
      (by rw [hst]; show (1:ℝ) ≤ 100; norm_num) (by show 0 < (N : Int).toNat; omega)
      (by show (N : Int) = (0 + (N : Int).toNat : Nat); omega) fun k hk => ?_
    have hk' : k < N := by simpa [exStallPar] using hk
    rw [hst]
    show s.fx + 1/4 * dot (fun i => project (vecadd s.x s.d (1 / 2 ^ k))
      (fun i => if feq (s.x i) 0 then -s.pg i else s.x i) 0 2 i - s.x i) s.pg < obj (exStall e) (exStallPar N)
      (project (vecadd s.x s.d (1 / 2 ^ k)) (fun i => if feq (s.x i) 0 then -s.pg i else s.x i) 0 2)
    rw [exStall_project _ _ _ _ (by rw [hx]; exact h0) (by rw [hx]; exact one_pos), hl.inv.f, hx, hpg, hd]
    set t : ℝ := 1 / 2 ^ k with ht
    have ht0 : 0 < t := by positivity
    have ht1 : t ≤ 1 := by
      rw [ht, div_le_one (by positivity)]
      exact one_le_pow₀ (by norm_num)
    set τ : ℝ := t * (116/455 + 60*e/91) with hτ
    have ht4 : 16 * (4 * e) ≤ t ^ 2 := by
      rw [he, ht, div_pow, one_pow, ← mul_assoc, mul_one_div, div_le_div_iff₀ (by positivity) (by positivity), ← pow_mul]
      calc (16 * 4 : ℝ) * 2 ^ (k * 2) = 2 ^ (k * 2 + 6) := by rw [pow_add]; norm_num; ring
        _ ≤ 2 ^ (2 * N + 4) := pow_le_pow_right₀ (by norm_num) (by omega)
        _ = 1 * 2 ^ (2 * N + 4) := (one_mul _).symm
    have hτ0 : 4 * e ≤ τ ^ 2 := by
      have : t / 4 ≤ τ := by rw [hτ]; nlinarith
      have := pow_le_pow_left₀ (by positivity) this 2
      nlinarith
    have hτ1 : τ < 1 := by rw [hτ]; nlinarith
    have hτp : 0 < τ := by rw [hτ]; positivity
    have c0 : e + t * (-(437/455) - 355*e/364) ≤ 0 := by
      have : 64 * e ≤ t * t := by nlinarith
      have : t * t ≤ t := by nlinarith
      nlinarith
    have c1 : (1:ℝ) + t * (-(116/455) - 60*e/91) = 1 - τ := by rw [hτ]; ring
    show obj _ _ _ + 1/4 * dot (fun i => (![if e + t * (-(437/455) - 355*e/364) ≤ 0 then 0 else _,
        if (1:ℝ) + t * (-(116/455) - 60*e/91) ≤ 0 then 0 else (1:ℝ) + t * (-(116/455) - 60*e/91)] : Fin 2 → ℝ) i - ![e, 1] i) _ <
      obj _ _ ![if e + t * (-(437/455) - 355*e/364) ≤ 0 then 0 else _,
        if (1:ℝ) + t * (-(116/455) - 60*e/91) ≤ 0 then 0 else (1:ℝ) + t * (-(116/455) - 60*e/91)]
    rw [if_pos c0, c1, if_neg (by linarith), exStall_obj, exStall_obj]
    simp only [dot, Fin.sum_univ_two, Matrix.cons_val_zero, Matrix.cons_val_one]
    rw [abs_of_pos h0, abs_zero, abs_one, abs_of_pos (by linarith : 0 < 1 - τ)]
    nlinarith [mul_pos h0 hτp]
  refine ⟨⟨-998, s.x, (lineSearch (exStall e) (exStallPar N) s).trials ++ s.trials, s.reports⟩, ?_, rfl, hx, hrep⟩
  refine .run hck (by rw [hfill]; exact hna) ?_
  rw [hfill]
  refine .next hit (.done ?_)
  unfold iterate
  dsimp only
  rw [if_pos (by rw [hsearch]; decide), hsearch]

end
end Verif.Lbfgs
