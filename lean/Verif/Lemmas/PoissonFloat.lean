import Verif.Spec.PoissonFloat
import Verif.Lemmas.Poisson
/-! Lemmas on the Poisson solver in floating point. -/
namespace Verif.PoissonFloat
open Verif.Py Verif.Poisson Verif.Spec.PoissonFloat

variable {n p : Nat}

theorem foldl_fin {m : Nat} (f : Fin m → ℝ) (l : List (Fin m)) : ∀ s : ℝ,
    l.foldl (fun s i => add s (.fin (f i))) (.fin s) = .fin (s + (l.map f).sum) := by
  induction l with
  | nil => intro s; simp
  | cons a l ih =>
    intro s
    rw [List.foldl_cons]
    show l.foldl _ (Ext.fin (s + f a)) = _
    rw [ih, List.map_cons, List.sum_cons, add_assoc]

theorem sum_fin {m : Nat} (f : Fin m → ℝ) : sum (fun i => .fin (f i)) = .fin (∑ i, f i) := by
  rw [sum, foldl_fin, zero_add, Fin.sum_univ_def]

theorem dot_fin (x c : Fin p → ℝ) : dot x (fun j => .fin (c j)) = .fin (Poisson.dot x c) := by
  show sum (fun j => Ext.fin (x j * c j)) = _
  rw [sum_fin]
  rfl

theorem div_fin {a b : ℝ} (hb : b ≠ 0) : div (.fin a) (.fin b) = .fin (a / b) := by
  simp [div, hb]

theorem soft_fin (x t : ℝ) : soft (.fin x) t = .fin (softThreshold x t) := by
  by_cases h : t < |x| <;> simp [soft, softThreshold, abs, sgn, sub, neg, add, mul, Above, sub_eq_add_neg, h]

theorem exp_fin {lo hi x : ℝ} (h1 : lo ≤ x) (h2 : x ≤ hi) : exp lo hi (.fin x) = .fin (Real.exp x) := by
  simp [exp, not_lt.2 h1, not_lt.2 h2]

/-- In range, the weights and working responses are those of exact arithmetic. -/
theorem adjusted_fin {lo hi : ℝ} (X : Fin n → Fin p → ℝ) (y : Fin n → ℝ) (c : Fin p → ℝ) (b : ℝ)
    (h : InRange lo hi X (c, b)) :
    adjusted lo hi X y (fun j => .fin (c j)) (.fin b) =
      (fun i => .fin ((adjustedResponse X y c b).1 i), fun i => .fin ((adjustedResponse X y c b).2 i)) := by
  have he : ∀ i, exp lo hi (add (.fin b) (dot (X i) fun j => .fin (c j))) = .fin (Real.exp (b + Poisson.dot (X i) c)) := by
    intro i
    rw [dot_fin]
    exact exp_fin (h i).1 (h i).2
  simp only [adjusted, adjustedResponse]
  refine Prod.ext (funext fun i => he i) (funext fun i => ?_)
  simp only
  rw [he i, div_fin (Real.exp_pos _).ne', dot_fin]
  rfl

theorem mask_fin (c : Fin p → ℝ) (j : Fin p) :
    (fun k => mul (.fin (c k)) (.fin (if k = j then 0 else 1))) = fun k => Ext.fin (c k * (if k = j then 0 else 1)) := rfl

theorem num_fin [NeZero n] (X : Fin n → Fin p → ℝ) (w z : Fin n → ℝ) (b : ℝ) (c : Fin p → ℝ) (j : Fin p) :
    num X (fun i => .fin (w i)) (fun i => .fin (z i)) (.fin b) (fun k => .fin (c k)) j = .fin (numUpdate X w z b c j) := by
  have hn : (n : ℝ) ≠ 0 := by exact_mod_cast NeZero.ne n
  simp only [num, mask_fin, dot_fin]
  show div (sum fun i => Ext.fin (w i * (X i j * (z i + -(b + _))))) _ = _
  rw [sum_fin, div_fin hn]
  simp only [numUpdate, sub_eq_add_neg]

theorem den_fin [NeZero n] (X : Fin n → Fin p → ℝ) (w : Fin n → ℝ) (j : Fin p) :
    den X (fun i => .fin (w i)) j = .fin (denUpdate X w j) := by
  have hn : (n : ℝ) ≠ 0 := by exact_mod_cast NeZero.ne n
  show div (sum fun i => Ext.fin (w i * X i j ^ 2)) _ = _
  rw [sum_fin, div_fin hn]
  rfl

theorem curved_pos [NeZero n] {pen : Pen} {X : Fin n → Fin p → ℝ} (h : Curved pen X) {w : Fin n → ℝ} (hw : ∀ i, 0 < w i)
    (j : Fin p) : 0 < denUpdate X w j + pen.alpha * (1 - pen.l1) := by
  have hn : (0 : ℝ) < n := by exact_mod_cast Nat.pos_of_ne_zero (NeZero.ne n)
  have h0 : 0 ≤ denUpdate X w j :=
    div_nonneg (Finset.sum_nonneg fun i _ => mul_nonneg (hw i).le (sq_nonneg _)) hn.le
  rcases h.2 j with ⟨i, hi⟩ | hr
  · have : 0 < denUpdate X w j := by
      refine div_pos (lt_of_lt_of_le (mul_pos (hw i) (by positivity : 0 < X i j ^ 2)) ?_) hn
      exact Finset.single_le_sum (f := fun i => w i * X i j ^ 2)
        (fun i _ => mul_nonneg (hw i).le (sq_nonneg _)) (Finset.mem_univ i)
    have := h.1
    linarith
  · linarith

theorem coord_fin [NeZero n] {pen : Pen} {X : Fin n → Fin p → ℝ} (w z : Fin n → ℝ) (b : ℝ) (c : Fin p → ℝ) (j : Fin p)
    (hd : denUpdate X w j + pen.alpha * (1 - pen.l1) ≠ 0) :
    coord pen X (fun i => .fin (w i)) (fun i => .fin (z i)) (.fin b) (fun k => .fin (c k)) j =
      fun k => .fin (cdCoord pen X w z b c j k) := by
  simp only [coord, num_fin, den_fin, soft_fin]
  rw [show add (Ext.fin (denUpdate X w j)) (.fin (pen.alpha * (1 - pen.l1))) =
    .fin (denUpdate X w j + pen.alpha * (1 - pen.l1)) from rfl, div_fin hd]
  funext k
  simp only [cdCoord, Function.update_apply]
  split_ifs <;> rfl

theorem foldl_coord_fin [NeZero n] {pen : Pen} {X : Fin n → Fin p → ℝ} (w z : Fin n → ℝ) (b : ℝ)
    (hd : ∀ j, denUpdate X w j + pen.alpha * (1 - pen.l1) ≠ 0) (l : List (Fin p)) : ∀ c : Fin p → ℝ,
    l.foldl (coord pen X (fun i => .fin (w i)) (fun i => .fin (z i)) (.fin b)) (fun k => .fin (c k)) =
      fun k => .fin (l.foldl (cdCoord pen X w z b) c k) := by
  induction l with
  | nil => intro c; rfl
  | cons j l ih =>
    intro c
    rw [List.foldl_cons, coord_fin _ _ _ _ _ (hd j), ih, List.foldl_cons]

theorem intercept_fin [NeZero n] (pen : Pen) (X : Fin n → Fin p → ℝ) {w : Fin n → ℝ} (hw : ∀ i, 0 < w i) (z : Fin n → ℝ)
    (c : Fin p → ℝ) :
    intercept pen X (fun i => .fin (w i)) (fun i => .fin (z i)) (fun k => .fin (c k)) = .fin (cdIntercept pen X w z c) := by
  unfold intercept cdIntercept
  split_ifs
  · simp only [dot_fin]
    show div (sum fun i => Ext.fin (w i * (z i + -_))) _ = _
    have hs : ∑ i, w i ≠ 0 := (Finset.sum_pos (fun i _ => hw i) ⟨⟨0, Nat.pos_of_ne_zero (NeZero.ne n)⟩, Finset.mem_univ _⟩).ne'
    rw [sum_fin, sum_fin, div_fin hs]
    simp only [sub_eq_add_neg]
  · rfl

theorem sweep_fin [NeZero n] {pen : Pen} {X : Fin n → Fin p → ℝ} (hc : Curved pen X) {w : Fin n → ℝ} (hw : ∀ i, 0 < w i)
    (z : Fin n → ℝ) (l : List (Fin p)) (c : Fin p → ℝ) :
    sweep pen X (fun i => .fin (w i)) (fun i => .fin (z i)) l (fun k => .fin (c k)) =
      (fun k => .fin ((cdSweep pen X w z l c).1 k), .fin (cdSweep pen X w z l c).2) := by
  simp only [sweep, cdSweep, intercept_fin pen X hw]
  rw [foldl_coord_fin w z _ (fun j => (curved_pos hc hw j).ne')]

theorem nonzero_fin (c : Fin p → ℝ) : nonzero (fun j => .fin (c j)) = nonzeros c := by
  simp [nonzero, nonzeros]

theorem below_fin (a b t : ℝ) : Below (abs (sub (.fin a) (.fin b))) t ↔ |a - b| < t := by
  simp [sub, neg, add, abs, Below, sub_eq_add_neg]

/-- The features iteration `m` visits. -/
noncomputable def act (pen : Pen) (X : Fin n → Fin p → ℝ) (y : Fin n → ℝ) (m : Nat) : List (Fin p) :=
  if m = 0 then List.finRange p else nonzeros (iter pen X y m).1

theorem weights_pos (X : Fin n → Fin p → ℝ) (y : Fin n → ℝ) (c : Fin p → ℝ) (b : ℝ) (i : Fin n) :
    0 < (adjustedResponse X y c b).1 i := Real.exp_pos _

/-- The state after a step in range. -/
theorem step_fin [NeZero n] {pen : Pen} {lo hi : ℝ} {X : Fin n → Fin p → ℝ} (y : Fin n → ℝ) (hc : Curved pen X) (m : Nat)
    (hr : InRange lo hi X (iter pen X y m)) :
    sweep pen X (adjusted lo hi X y (fun j => .fin ((iter pen X y m).1 j)) (.fin (iter pen X y m).2)).1
      (adjusted lo hi X y (fun j => .fin ((iter pen X y m).1 j)) (.fin (iter pen X y m).2)).2 (act pen X y m)
      (fun j => .fin ((iter pen X y m).1 j)) =
      (fun j => .fin ((iter pen X y (m + 1)).1 j), .fin (iter pen X y (m + 1)).2) := by
  rw [adjusted_fin X y _ _ hr]
  exact sweep_fin hc (weights_pos X y _ _) _ _ _

theorem stops_iff {pen : Pen} {X : Fin n → Fin p → ℝ} {y : Fin n → ℝ} (tol : ℝ) (m : Nat) :
    (∀ j, Below (abs (sub (.fin ((iter pen X y m).1 j)) (.fin ((iter pen X y (m + 1)).1 j)))) tol) ↔
      Stops tol (iter pen X y) m := by
  simp only [below_fin]
  rfl

/-- One iteration in range. -/
theorem loop_step [NeZero n] {pen : Pen} {lo hi tol : ℝ} {X : Fin n → Fin p → ℝ} (y : Fin n → ℝ) (hc : Curved pen X)
    (m fuel : Nat) (hr : InRange lo hi X (iter pen X y m)) (hs : ¬ Stops tol (iter pen X y) m) :
    loop lo hi pen tol X y (fuel + 1) (act pen X y m) (fun j => .fin ((iter pen X y m).1 j)) (.fin (iter pen X y m).2) =
      loop lo hi pen tol X y fuel (act pen X y (m + 1)) (fun j => .fin ((iter pen X y (m + 1)).1 j))
        (.fin (iter pen X y (m + 1)).2) := by
  have hp : p ≠ 0 := by
    rintro rfl
    exact hs fun j => j.elim0
  rw [loop]
  simp only [step_fin y hc m hr, hp, if_false, stops_iff, hs, nonzero_fin]
  rfl

theorem cdLoop_step {pen : Pen} {tol : ℝ} {X : Fin n → Fin p → ℝ} (y : Fin n → ℝ) (m fuel : Nat)
    (hs : ¬ Stops tol (iter pen X y) m) :
    cdLoop pen tol X y (fuel + 1) (.flat (act pen X y m)) (iter pen X y m).1 (iter pen X y m).2 =
      cdLoop pen tol X y fuel (.flat (act pen X y (m + 1))) (iter pen X y (m + 1)).1 (iter pen X y (m + 1)).2 := by
  have hp : p ≠ 0 := by
    rintro rfl
    exact hs fun j => j.elim0
  rw [cdLoop]
  simp only [sweepActive, hp, if_false]
  exact if_neg hs

/-- As long as nothing leaves the range and nothing stops, the loop is at the exact iterates. -/
theorem loop_reach [NeZero n] {pen : Pen} {lo hi tol : ℝ} {X : Fin n → Fin p → ℝ} (y : Fin n → ℝ) (hc : Curved pen X)
    (m : Nat) : ∀ fuel, (∀ k < m, InRange lo hi X (iter pen X y k) ∧ ¬ Stops tol (iter pen X y) k) →
    cdF lo hi pen tol (fuel + m) X y =
      loop lo hi pen tol X y fuel (act pen X y m) (fun j => .fin ((iter pen X y m).1 j)) (.fin (iter pen X y m).2) := by
  induction m with
  | zero => intro fuel _; rfl
  | succ m ih =>
    intro fuel h
    rw [show fuel + (m + 1) = (fuel + 1) + m by omega, ih (fuel + 1) fun k hk => h k (by omega)]
    exact loop_step y hc m fuel (h m (by omega)).1 (h m (by omega)).2

theorem cdLoop_reach {pen : Pen} {tol : ℝ} {X : Fin n → Fin p → ℝ} (y : Fin n → ℝ) (c0 : Fin p → ℝ) (b0 : ℝ)
    (m : Nat) : ∀ fuel, (∀ k < m, ¬ Stops tol (iter pen X y) k) →
    cd pen tol (fuel + m) false c0 b0 X y =
      cdLoop pen tol X y fuel (.flat (act pen X y m)) (iter pen X y m).1 (iter pen X y m).2 := by
  induction m with
  | zero => intro fuel _; rfl
  | succ m ih =>
    intro fuel h
    rw [show fuel + (m + 1) = (fuel + 1) + m by omega, ih (fuel + 1) fun k hk => h k (by omega)]
    exact cdLoop_step y m fuel (h m (by omega))

/-- The refinement: in range until it stops, the solver computes what it computes in exact arithmetic. -/
theorem cdF_eq [NeZero n] {pen : Pen} {lo hi tol : ℝ} {X : Fin n → Fin p → ℝ} (y : Fin n → ℝ) (hc : Curved pen X)
    (maxIter : Nat) (c0 : Fin p → ℝ) (b0 : ℝ)
    (h : ∀ m < maxIter, (∀ k < m, ¬ Stops tol (iter pen X y) k) → InRange lo hi X (iter pen X y m)) :
    cdF lo hi pen tol maxIter X y = asFloats (cd pen tol maxIter false c0 b0 X y) := by
  classical
  by_cases hex : ∃ m < maxIter, Stops tol (iter pen X y) m
  · have hsp := Nat.find_spec hex
    have hmin : ∀ k < Nat.find hex, ¬ Stops tol (iter pen X y) k := fun k hk hs =>
      Nat.find_min hex hk ⟨lt_trans hk hsp.1, hs⟩
    generalize hm : Nat.find hex = m at hsp hmin
    obtain ⟨fuel, rfl⟩ : ∃ fuel, maxIter = (fuel + 1) + m := ⟨maxIter - m - 1, by omega⟩
    have hin : ∀ k ≤ m, InRange lo hi X (iter pen X y k) := fun k hk => h k (by omega) fun l hl => hmin l (by omega)
    rw [loop_reach y hc m (fuel + 1) fun k hk => ⟨hin k (by omega), hmin k hk⟩, cdLoop_reach y c0 b0 m (fuel + 1) hmin]
    rw [loop, cdLoop]
    simp only [step_fin y hc m (hin m le_rfl), stops_iff, hsp.2, if_true, sweepActive]
    by_cases hp : p = 0
    · simp only [hp, if_true]
      rfl
    · simp only [hp, if_false]
      refine Eq.symm ?_
      rw [show (open Classical in if ∀ j, |(iter pen X y m).1 j - (cdSweep pen X (adjustedResponse X y (iter pen X y m).1 (iter pen X y m).2).1
        (adjustedResponse X y (iter pen X y m).1 (iter pen X y m).2).2 (act pen X y m) (iter pen X y m).1).1 j| < tol then _ else _) = _
        from if_pos hsp.2]
      rfl
  · push Not at hex
    have := loop_reach (lo := lo) (hi := hi) y hc maxIter 0 fun k hk => ⟨h k hk fun l hl => hex l (by omega), hex k hk⟩
    rw [zero_add] at this
    rw [this]
    have := cdLoop_reach y c0 b0 maxIter 0 hex
    rw [zero_add] at this
    rw [this]
    rfl

/-- With features, a cold fit in exact arithmetic has a result. -/
theorem cd_cold_ok (pen : Pen) (tol : ℝ) (hp : p ≠ 0) (maxIter : Nat) (c0 : Fin p → ℝ) (b0 : ℝ) (X : Fin n → Fin p → ℝ)
    (y : Fin n → ℝ) : ∃ r, cd pen tol maxIter false c0 b0 X y = .ok r := by
  have : ∀ fuel (l : List (Fin p)) c b, ∃ r, cdLoop pen tol X y fuel (.flat l) c b = .ok r := by
    intro fuel
    induction fuel with
    | zero => intro l c b; exact ⟨_, rfl⟩
    | succ fuel ih =>
      intro l c b
      rw [cdLoop]
      simp only [sweepActive, hp, if_false]
      split_ifs
      · exact ⟨_, rfl⟩
      · exact ih _ _ _
  exact this _ _ _ _

/-! ### NaN -/

theorem add_nan (a : Ext ℝ) : add a .nan = .nan := by cases a <;> rfl
theorem mul_nan (a : Ext ℝ) : mul a .nan = .nan := by cases a <;> rfl
theorem div_nan (a : Ext ℝ) : div a .nan = .nan := by cases a <;> rfl

theorem foldl_nan {m : Nat} (f : Fin m → Ext ℝ) (l : List (Fin m)) :
    l.foldl (fun s i => add s (f i)) .nan = .nan := by
  induction l with
  | nil => rfl
  | cons a l ih => rw [List.foldl_cons]; exact ih

/-- A sum with a NaN is NaN. -/
theorem sum_nan {m : Nat} {f : Fin m → Ext ℝ} {i : Fin m} (h : f i = .nan) : sum f = .nan := by
  have : ∀ (l : List (Fin m)) s, i ∈ l → l.foldl (fun s i => add s (f i)) s = .nan := by
    intro l
    induction l with
    | nil => intro s hi; cases hi
    | cons a l ih =>
      intro s hi
      rw [List.foldl_cons]
      rcases List.mem_cons.1 hi with rfl | hi
      · rw [h, add_nan, foldl_nan]
      · exact ih _ hi
  exact this _ _ (List.mem_finRange i)

theorem soft_nan (t : ℝ) : soft .nan t = .nan := rfl

theorem num_nan_intercept [NeZero n] (X : Fin n → Fin p → ℝ) (w z : Fin n → Ext ℝ) (c : Fin p → Ext ℝ) (j : Fin p) :
    num X w z .nan c j = .nan := by
  have : (sum fun i => mul (w i) (mul (.fin (X i j)) (sub (z i)
    (add .nan (dot (X i) fun k => mul (c k) (.fin (if k = j then 0 else 1))))))) = .nan := by
    refine sum_nan (i := 0) ?_
    show mul _ (mul _ (add _ .nan)) = _
    rw [add_nan, mul_nan, mul_nan]
  rw [num, this]
  rfl

/-- With a NaN intercept a visited coefficient becomes NaN. -/
theorem coord_nan [NeZero n] (pen : Pen) (X : Fin n → Fin p → ℝ) (w z : Fin n → Ext ℝ) (c : Fin p → Ext ℝ) (j : Fin p) :
    coord pen X w z .nan c j = Function.update c j .nan := by
  rw [coord, num_nan_intercept, soft_nan]
  rfl

theorem foldl_coord_nan [NeZero n] (pen : Pen) (X : Fin n → Fin p → ℝ) (w z : Fin n → Ext ℝ) (l : List (Fin p)) :
    ∀ (c : Fin p → Ext ℝ) (j : Fin p), (c j = .nan ∨ j ∈ l) → l.foldl (coord pen X w z .nan) c j = .nan := by
  induction l with
  | nil => intro c j h; simpa using h
  | cons a l ih =>
    intro c j h
    rw [List.foldl_cons, coord_nan]
    refine ih _ j ?_
    by_cases ha : j = a
    · exact Or.inl (by rw [ha, Function.update_self])
    · rcases h with h | h
      · exact Or.inl (by rw [Function.update_of_ne ha, h])
      · exact Or.inr ((List.mem_cons.1 h).resolve_left ha)

theorem adjusted_nan (lo hi : ℝ) (X : Fin n → Fin p → ℝ) (y : Fin n → ℝ) (c : Fin p → Ext ℝ) (i : Fin n) :
    (adjusted lo hi X y c .nan).1 i = .nan := rfl

/-- One iteration, with the result of its sweep. -/
theorem loop_succ {lo hi : ℝ} {pen : Pen} {tol : ℝ} {X : Fin n → Fin p → ℝ} {y : Fin n → ℝ} (hp : p ≠ 0) (fuel : Nat)
    (l : List (Fin p)) (c : Fin p → Ext ℝ) (b : Ext ℝ) {F : Fin p → Ext ℝ} {b' : Ext ℝ}
    (hs : sweep pen X (adjusted lo hi X y c b).1 (adjusted lo hi X y c b).2 l c = (F, b')) :
    loop lo hi pen tol X y (fuel + 1) l c b =
      open Classical in
      if ∀ j, Below (abs (sub (c j) (F j))) tol then .ok (F, b', true) else loop lo hi pen tol X y fuel (nonzero F) F b' := by
  rw [loop]
  simp only [hp, if_false]
  rw [hs]

/-- From a NaN intercept on, everything that is NaN stays so. -/
theorem loop_nan [NeZero n] (lo hi : ℝ) {pen : Pen} (hfi : pen.fi = true) (tol : ℝ) (X : Fin n → Fin p → ℝ) (y : Fin n → ℝ)
    (hp : p ≠ 0) (fuel : Nat) : ∀ (l : List (Fin p)) (c : Fin p → Ext ℝ), ∃ c' v,
    loop lo hi pen tol X y fuel l c .nan = .ok (c', .nan, v) ∧ (∀ j, c j = .nan → c' j = .nan) ∧
      ((∃ j, c j = .nan) → v = false) := by
  induction fuel with
  | zero => intro l c; exact ⟨c, false, rfl, fun j h => h, fun _ => rfl⟩
  | succ fuel ih =>
    intro l c
    have hb : intercept pen X (adjusted lo hi X y c .nan).1 (adjusted lo hi X y c .nan).2 c = .nan := by
      unfold intercept
      rw [if_pos hfi, sum_nan (f := (adjusted lo hi X y c .nan).1) (i := 0) rfl, div_nan]
    have hk : ∀ j, c j = .nan → l.foldl (coord pen X (adjusted lo hi X y c .nan).1 (adjusted lo hi X y c .nan).2 .nan) c j = .nan :=
      fun j hj => foldl_coord_nan _ _ _ _ _ _ _ (Or.inl hj)
    generalize hF : l.foldl (coord pen X (adjusted lo hi X y c .nan).1 (adjusted lo hi X y c .nan).2 .nan) c = F at hk
    rw [loop_succ (F := F) (b' := .nan) hp fuel l c .nan (by simp only [sweep, hb, hF])]
    by_cases hcv : ∀ j, Below (abs (sub (c j) (F j))) tol
    · rw [if_pos hcv]
      refine ⟨F, true, rfl, hk, fun ⟨j, hj⟩ => ?_⟩
      have := hcv j
      rw [hj] at this
      exact this.elim
    · rw [if_neg hcv]
      obtain ⟨c', v, h1, h2, h3⟩ := ih (nonzero F) F
      exact ⟨c', v, h1, fun j hj => h2 j (hk j hj), fun ⟨j, hj⟩ => h3 ⟨j, hk j hj⟩⟩

/-! ### Overflow -/

theorem foldl_not_fin {m : Nat} (f : Fin m → Ext ℝ) (l : List (Fin m)) : ∀ s : Ext ℝ,
    (¬ s.IsFin ∨ ∃ i ∈ l, ¬ (f i).IsFin) → ¬ (l.foldl (fun s i => add s (f i)) s).IsFin := by
  have hadd : ∀ a b : Ext ℝ, ¬ a.IsFin ∨ ¬ b.IsFin → ¬ (add a b).IsFin := by
    intro a b h
    cases a <;> cases b <;> simp_all [add, Ext.IsFin]
  induction l with
  | nil => intro s h; simpa using h
  | cons a l ih =>
    intro s h
    rw [List.foldl_cons]
    refine ih _ ?_
    rcases h with h | ⟨i, hi, h⟩
    · exact Or.inl (hadd _ _ (Or.inl h))
    · rcases List.mem_cons.1 hi with rfl | hi
      · exact Or.inl (hadd _ _ (Or.inr h))
      · exact Or.inr ⟨i, hi, h⟩

theorem sum_not_fin {m : Nat} {f : Fin m → Ext ℝ} {i : Fin m} (h : ¬ (f i).IsFin) : ¬ (sum f).IsFin :=
  foldl_not_fin f _ _ (Or.inr ⟨i, List.mem_finRange i, h⟩)

theorem sum_pinf {m : Nat} {f : Fin m → Ext ℝ} (hf : ∀ i, (∃ x, f i = .fin x) ∨ f i = .pinf) {i : Fin m}
    (h : f i = .pinf) : sum f = .pinf := by
  have h1 : ∀ (l : List (Fin m)) s, ((∃ x, s = .fin x) ∨ s = Ext.pinf) →
      ((∃ x, l.foldl (fun s i => add s (f i)) s = .fin x) ∨ l.foldl (fun s i => add s (f i)) s = .pinf) := by
    intro l
    induction l with
    | nil => intro s hs; exact hs
    | cons a l ih =>
      intro s hs
      rw [List.foldl_cons]
      refine ih _ ?_
      rcases hs with ⟨x, rfl⟩ | rfl <;> rcases hf a with ⟨y, hy⟩ | hy <;> rw [hy]
      · exact Or.inl ⟨_, rfl⟩
      · exact Or.inr rfl
      · exact Or.inr rfl
      · exact Or.inr rfl
  rcases h1 (List.finRange m) (.fin 0) (Or.inl ⟨0, rfl⟩) with ⟨x, hx⟩ | hx
  · refine absurd ?_ (sum_not_fin (f := f) (i := i) (by rw [h]; exact id))
    rw [sum, hx]
    trivial
  · exact hx

theorem infOf_not_fin (a : ℝ) (s : Bool) : ¬ (infOf a s).IsFin := by
  unfold infOf
  split_ifs <;> exact id

theorem exp_cases (lo hi x : ℝ) : (∃ y, exp lo hi (.fin x) = .fin y) ∨ exp lo hi (.fin x) = .pinf := by
  unfold exp
  simp only
  split_ifs
  · exact Or.inr rfl
  · exact Or.inl ⟨_, rfl⟩
  · exact Or.inl ⟨_, rfl⟩

/-- A linear predictor above the range makes the intercept NaN. -/
theorem intercept_overflow {pen : Pen} (hfi : pen.fi = true) {lo hi : ℝ} {X : Fin n → Fin p → ℝ} (y : Fin n → ℝ)
    (s : (Fin p → ℝ) × ℝ) {i : Fin n} (h : hi < predictor X s i) :
    intercept pen X (adjusted lo hi X y (fun j => .fin (s.1 j)) (.fin s.2)).1
      (adjusted lo hi X y (fun j => .fin (s.1 j)) (.fin s.2)).2 (fun j => .fin (s.1 j)) = .nan := by
  have hw : ∀ k, (adjusted lo hi X y (fun j => .fin (s.1 j)) (.fin s.2)).1 k = exp lo hi (.fin (predictor X s k)) := by
    intro k
    simp only [adjusted, dot_fin]
    rfl
  have hwi : (adjusted lo hi X y (fun j => .fin (s.1 j)) (.fin s.2)).1 i = .pinf := by
    rw [hw i]
    simp [exp, h]
  have hz : (adjusted lo hi X y (fun j => .fin (s.1 j)) (.fin s.2)).2 i = .fin (predictor X s i + 0 + -1) := by
    have : (adjusted lo hi X y (fun j => .fin (s.1 j)) (.fin s.2)).2 i =
        sub (add (add (.fin s.2) (dot (X i) fun j => .fin (s.1 j))) (div (.fin (y i))
          ((adjusted lo hi X y (fun j => .fin (s.1 j)) (.fin s.2)).1 i))) (.fin 1) := rfl
    rw [this, hwi, dot_fin]
    rfl
  unfold intercept
  rw [if_pos hfi, sum_pinf (f := (adjusted lo hi X y (fun j => .fin (s.1 j)) (.fin s.2)).1)
    (fun k => by rw [hw k]; exact exp_cases _ _ _) hwi]
  have hs := sum_not_fin (f := fun k => mul ((adjusted lo hi X y (fun j => .fin (s.1 j)) (.fin s.2)).1 k)
    (sub ((adjusted lo hi X y (fun j => .fin (s.1 j)) (.fin s.2)).2 k) (dot (X k) fun j => .fin (s.1 j)))) (i := i) (by
      rw [hwi, hz, dot_fin]
      exact infOf_not_fin _ _)
  revert hs
  generalize sum _ = t
  intro hs
  cases t <;> first | rfl | exact absurd trivial hs

theorem mem_nonzeros {c : Fin p → ℝ} {j : Fin p} : j ∈ nonzeros c ↔ c j ≠ 0 := by
  simp [nonzeros]

theorem mem_act {pen : Pen} {X : Fin n → Fin p → ℝ} {y : Fin n → ℝ} {m : Nat} {j : Fin p} (h : (iter pen X y m).1 j ≠ 0) :
    j ∈ act pen X y m := by
  unfold act
  split_ifs
  · exact List.mem_finRange j
  · exact mem_nonzeros.2 h

/-- The result after an overflow in iteration `m`. -/
theorem cdF_overflow [NeZero n] {pen : Pen} (hfi : pen.fi = true) {lo hi tol : ℝ} {X : Fin n → Fin p → ℝ} (y : Fin n → ℝ)
    (hp : p ≠ 0) (hc : Curved pen X) {maxIter m : Nat} (hm : m < maxIter)
    (h : ∀ k < m, InRange lo hi X (iter pen X y k) ∧ ¬ Stops tol (iter pen X y) k) {i : Fin n}
    (hi' : hi < predictor X (iter pen X y m) i) :
    ∃ c v, cdF lo hi pen tol maxIter X y = .ok (c, .nan, v) ∧ (∀ j, (iter pen X y m).1 j ≠ 0 → c j = .nan) ∧
      ((∃ j, (iter pen X y m).1 j ≠ 0) → v = false) := by
  obtain ⟨fuel, rfl⟩ : ∃ fuel, maxIter = (fuel + 1) + m := ⟨maxIter - m - 1, by omega⟩
  rw [loop_reach y hc m (fuel + 1) h]
  generalize hF : (act pen X y m).foldl (coord pen X (adjusted lo hi X y (fun j => .fin ((iter pen X y m).1 j)) (.fin (iter pen X y m).2)).1
      (adjusted lo hi X y (fun j => .fin ((iter pen X y m).1 j)) (.fin (iter pen X y m).2)).2 .nan) (fun j => .fin ((iter pen X y m).1 j)) = F
  have hk : ∀ j, (iter pen X y m).1 j ≠ 0 → F j = .nan := fun j hj => by
    rw [← hF]
    exact foldl_coord_nan _ _ _ _ _ _ _ (Or.inr (mem_act hj))
  rw [loop_succ (F := F) (b' := .nan) hp fuel _ _ _ (by
    simp only [sweep, intercept_overflow hfi y (iter pen X y m) hi', hF])]
  by_cases hcv : ∀ j, Below (abs (sub (.fin ((iter pen X y m).1 j)) (F j))) tol
  · rw [if_pos hcv]
    refine ⟨F, true, rfl, hk, fun ⟨j, hj⟩ => ?_⟩
    have := hcv j
    rw [hk j hj] at this
    exact this.elim
  · rw [if_neg hcv]
    obtain ⟨c', v, h1, h2, h3⟩ := loop_nan lo hi hfi tol X y hp fuel (nonzero F) F
    exact ⟨c', v, h1, fun j hj => h2 j (hk j hj), fun ⟨j, hj⟩ => h3 ⟨j, hk j hj⟩⟩

/-! ### The first iteration -/

theorem iter_one (pen : Pen) (X : Fin n → Fin p → ℝ) (y : Fin n → ℝ) :
    iter pen X y 1 = cdSweep pen X (fun _ => 1) (fun i => y i - 1) (List.finRange p) (fun _ => 0) := by
  have hw : (adjustedResponse X y (fun _ => 0) 0).1 = fun _ => (1 : ℝ) := by
    funext i; simp [adjustedResponse, Poisson.dot]
  have hz : (adjustedResponse X y (fun _ => 0) 0).2 = fun i => y i - 1 := by
    funext i; simp [adjustedResponse, Poisson.dot]
  show cdSweep pen X (adjustedResponse X y (fun _ => 0) 0).1 (adjustedResponse X y (fun _ => 0) 0).2 (List.finRange p)
    (fun _ => 0) = _
  rw [hw, hz]

theorem intercept_one [NeZero n] {pen : Pen} (hfi : pen.fi = true) (X : Fin n → Fin p → ℝ) (y : Fin n → ℝ) :
    cdIntercept pen X (fun _ => 1) (fun i => y i - 1) (fun _ => 0) = (∑ i, y i) / n - 1 := by
  have hn : (n : ℝ) ≠ 0 := by exact_mod_cast NeZero.ne n
  simp [cdIntercept, hfi, Poisson.dot]
  field_simp

theorem iter_one_intercept [NeZero n] {pen : Pen} (hfi : pen.fi = true) (X : Fin n → Fin p → ℝ) (y : Fin n → ℝ) :
    (iter pen X y 1).2 = (∑ i, y i) / n - 1 := by
  rw [iter_one]
  exact intercept_one hfi X y

theorem foldl_cdCoord_of_not_mem (pen : Pen) (X : Fin n → Fin p → ℝ) (w z : Fin n → ℝ) (b : ℝ) (l : List (Fin p)) {j : Fin p} :
    ∀ c : Fin p → ℝ, j ∉ l → l.foldl (cdCoord pen X w z b) c j = c j := by
  induction l with
  | nil => intro c _; rfl
  | cons a l ih =>
    intro c h
    rw [List.foldl_cons, ih _ fun hm => h (List.mem_cons_of_mem _ hm), cdCoord,
      Function.update_of_ne fun (e : j = a) => h (by rw [e]; exact List.mem_cons_self)]

/-- The first feature after the first iteration. -/
theorem iter_one_zero [NeZero n] {pen : Pen} (hfi : pen.fi = true) (X : Fin n → Fin (p + 1) → ℝ) (y : Fin n → ℝ) :
    (iter pen X y 1).1 0 = softThreshold ((∑ i, X i 0 * (y i - (∑ i, y i) / n)) / n) (pen.l1 * pen.alpha) /
      ((∑ i, X i 0 ^ 2) / n + pen.alpha * (1 - pen.l1)) := by
  rw [iter_one]
  simp only [cdSweep, intercept_one hfi]
  rw [List.finRange_succ, List.foldl_cons, foldl_cdCoord_of_not_mem _ _ _ _ _ _ _ (by simp)]
  rw [cdCoord, Function.update_self]
  congr 2
  · simp only [numUpdate, Poisson.dot]
    congr 1
    exact Finset.sum_congr rfl fun i _ => by simp
  · simp [denUpdate]

theorem abs_soft {x t : ℝ} (ht : 0 ≤ t) (h : t < |x|) : |softThreshold x t| = |x| - t := by
  have hx : x ≠ 0 := by
    rintro rfl
    rw [abs_zero] at h
    linarith
  have hs : |sign x| = 1 := by
    unfold sign
    rcases lt_or_gt_of_ne hx with h | h
    · simp [h, not_lt.2 h.le]
    · simp [h]
  simp only [softThreshold, gt_iff_lt, h, if_true, mul_one, abs_mul, hs, one_mul]
  exact abs_of_pos (by linarith)

/-- Some row of columns that sum to zero has a nonnegative combination. -/
theorem exists_row [NeZero n] (X : Fin n → Fin p → ℝ) (h : ∀ j, ∑ i, X i j = 0) (c : Fin p → ℝ) :
    ∃ i, 0 ≤ ∑ j, X i j * c j := by
  by_contra hne
  push Not at hne
  have h1 : ∑ i, ∑ j, X i j * c j < 0 :=
    Finset.sum_neg (fun i _ => hne i) ⟨(0 : Fin n), Finset.mem_univ _⟩
  rw [Finset.sum_comm] at h1
  have h2 : ∑ j, ∑ i, X i j * c j = 0 :=
    Finset.sum_eq_zero fun j _ => by rw [← Finset.sum_mul, h j, zero_mul]
  linarith

theorem inRange_zero {lo hi : ℝ} (hlo : lo ≤ 0) (hhi : 0 ≤ hi) (pen : Pen) (X : Fin n → Fin p → ℝ) (y : Fin n → ℝ) :
    InRange lo hi X (iter pen X y 0) := by
  intro i
  simp only [predictor, iter, mul_zero, Finset.sum_const_zero, add_zero]
  exact ⟨hlo, hhi⟩

/-! ### A feature without curvature -/

theorem foldl_update_nan {g : (Fin p → Ext ℝ) → Fin p → Fin p → Ext ℝ} (hg : ∀ c j, g c j = Function.update c j .nan)
    (l : List (Fin p)) : ∀ (c : Fin p → Ext ℝ) (j : Fin p), (c j = .nan ∨ j ∈ l) → l.foldl g c j = .nan := by
  induction l with
  | nil => intro c j h; simpa using h
  | cons a l ih =>
    intro c j h
    rw [List.foldl_cons, hg]
    refine ih _ j ?_
    by_cases ha : j = a
    · exact Or.inl (by rw [ha, Function.update_self])
    · rcases h with h | h
      · exact Or.inl (by rw [Function.update_of_ne ha, h])
      · exact Or.inr ((List.mem_cons.1 h).resolve_left ha)

theorem coord_nan_weight [NeZero n] (pen : Pen) (X : Fin n → Fin p → ℝ) {w : Fin n → Ext ℝ} (hw : ∀ i, w i = .nan)
    (z : Fin n → Ext ℝ) (b : Ext ℝ) (c : Fin p → Ext ℝ) (j : Fin p) : coord pen X w z b c j = Function.update c j .nan := by
  have : num X w z b c j = .nan := by
    rw [num, sum_nan (i := 0) (by rw [hw 0]; rfl)]
    rfl
  rw [coord, this, soft_nan]
  rfl

theorem foldl_coord_of_not_mem (pen : Pen) (X : Fin n → Fin p → ℝ) (w z : Fin n → Ext ℝ) (b : Ext ℝ) (l : List (Fin p))
    {j : Fin p} : ∀ c : Fin p → Ext ℝ, j ∉ l → l.foldl (coord pen X w z b) c j = c j := by
  induction l with
  | nil => intro c _; rfl
  | cons a l ih =>
    intro c h
    rw [List.foldl_cons, ih _ fun hm => h (List.mem_cons_of_mem _ hm), coord,
      Function.update_of_ne fun (e : j = a) => h (by rw [e]; exact List.mem_cons_self)]

theorem mem_nonzero {c : Fin p → Ext ℝ} {j : Fin p} : j ∈ nonzero c ↔ c j ≠ .fin 0 := by
  simp [nonzero]

/-- A NaN coefficient stays, makes the others that are visited NaN, and the intercept. -/
theorem loop_nan_coef [NeZero n] (lo hi : ℝ) (pen : Pen) (tol : ℝ) (X : Fin n → Fin p → ℝ) (y : Fin n → ℝ) {q : Fin p}
    (fuel : Nat) : ∀ (l : List (Fin p)) (c : Fin p → Ext ℝ) (b : Ext ℝ), c q = .nan → ∃ c' b',
    loop lo hi pen tol X y fuel l c b = .ok (c', b', false) ∧ c' q = .nan ∧ (∀ j, c j = .nan → c' j = .nan) ∧
      (0 < fuel → (∀ j ∈ l, c' j = .nan) ∧ (pen.fi = true → b' = .nan)) ∧
      (∀ j, c j = .fin 0 → j ∉ l → c' j = .fin 0) := by
  induction fuel with
  | zero => intro l c b h; exact ⟨c, b, rfl, h, fun j h => h, fun h => absurd h (lt_irrefl 0), fun j h _ => h⟩
  | succ fuel ih =>
    intro l c b h
    have hp : p ≠ 0 := by
      rintro rfl
      exact q.elim0
    have hw : ∀ i, (adjusted lo hi X y c b).1 i = .nan := by
      intro i
      have : dot (X i) c = .nan := sum_nan (i := q) (by rw [h, mul_nan])
      simp only [adjusted, this, add_nan]
      rfl
    have hb : pen.fi = true → intercept pen X (adjusted lo hi X y c b).1 (adjusted lo hi X y c b).2 c = .nan := by
      intro hfi
      unfold intercept
      rw [if_pos hfi, sum_nan (f := (adjusted lo hi X y c b).1) (i := 0) (hw 0), div_nan]
    generalize hb' : intercept pen X (adjusted lo hi X y c b).1 (adjusted lo hi X y c b).2 c = b' at hb
    have hk := foldl_update_nan (coord_nan_weight pen X hw (adjusted lo hi X y c b).2 b') l c
    have hk0 : ∀ j, j ∉ l → l.foldl (coord pen X (adjusted lo hi X y c b).1 (adjusted lo hi X y c b).2 b') c j = c j :=
      fun j hj => foldl_coord_of_not_mem _ _ _ _ _ _ _ hj
    generalize hF : l.foldl (coord pen X (adjusted lo hi X y c b).1 (adjusted lo hi X y c b).2 b') c = F at hk hk0
    rw [loop_succ (F := F) (b' := b') hp fuel l c b (by simp only [sweep, hb', hF])]
    rw [if_neg fun hcv => by
      have := hcv q
      rw [h] at this
      exact this.elim]
    obtain ⟨c', b'', h1, h2, h3, h4, h5⟩ := ih (nonzero F) F b' (hk q (Or.inl h))
    refine ⟨c', b'', h1, h2, fun j hj => h3 j (hk j (Or.inl hj)), fun _ => ⟨fun j hj => h3 j (hk j (Or.inr hj)), fun hfi => ?_⟩,
      fun j hj hl => ?_⟩
    rotate_left
    · have hF0 : F j = .fin 0 := by rw [hk0 j hl, hj]
      exact h5 j hF0 fun hm => mem_nonzero.1 hm hF0
    rcases Nat.eq_zero_or_pos fuel with rfl | hf
    · have := Except.ok.inj h1
      simp only [Prod.mk.injEq] at this
      rw [← this.2.1, hb hfi]
    · exact (h4 hf).2 hfi

/-- The update of a feature that is zero everywhere, with unit weights and no ridge penalty: NaN. -/
theorem coord_zero_column [NeZero n] {pen : Pen} (hr : pen.alpha * (1 - pen.l1) = 0) (ht : 0 ≤ pen.l1 * pen.alpha)
    {X : Fin n → Fin p → ℝ} {q : Fin p} (hq : ∀ i, X i q = 0) (z : Fin n → Ext ℝ) (b : Ext ℝ) (c : Fin p → Ext ℝ) :
    coord pen X (fun _ => .fin 1) z b c q q = .nan := by
  have hn : (n : ℝ) ≠ 0 := by exact_mod_cast NeZero.ne n
  have hterm : ∀ a : Ext ℝ, mul (.fin 1) (mul (.fin 0) a) = .fin 0 ∨ mul (.fin 1) (mul (.fin 0) a) = .nan := by
    intro a
    cases a with
    | fin x => exact Or.inl (by simp [mul])
    | nan => exact Or.inr rfl
    | pinf => exact Or.inr (by simp [mul, infOf])
    | ninf => exact Or.inr (by simp [mul, infOf])
  have hnum : num X (fun _ => .fin 1) z b c q = .fin 0 ∨ num X (fun _ => .fin 1) z b c q = .nan := by
    by_cases hall : ∀ i : Fin n, mul (.fin 1) (mul (.fin (X i q)) (sub (z i)
        (add b (dot (X i) fun k => mul (c k) (.fin (if k = q then 0 else 1)))))) = .fin 0
    · left
      rw [num]
      simp only [hall]
      rw [sum_fin, div_fin hn]
      simp
    · right
      push Not at hall
      obtain ⟨i, hi⟩ := hall
      rw [num, sum_nan (i := i) (by
        have := hterm (sub (z i) (add b (dot (X i) fun k => mul (c k) (.fin (if k = q then 0 else 1)))))
        rw [hq i] at hi ⊢
        exact this.resolve_left hi)]
      rfl
  have hden : den X (fun _ => .fin 1) q = .fin 0 := by
    rw [den]
    show div (sum fun i => Ext.fin (1 * X i q ^ 2)) _ = _
    rw [sum_fin, div_fin hn]
    simp [hq]
  rw [coord, Function.update_self, hden, hr]
  show div _ (Ext.fin (0 + 0)) = _
  rcases hnum with h | h <;> rw [h]
  · rw [soft_fin]
    simp [softThreshold, not_lt.2 ht, div, infOf]
  · rfl

theorem foldl_zero_column [NeZero n] {pen : Pen} (hr : pen.alpha * (1 - pen.l1) = 0) (ht : 0 ≤ pen.l1 * pen.alpha)
    {X : Fin n → Fin p → ℝ} {q : Fin p} (hq : ∀ i, X i q = 0) (z : Fin n → Ext ℝ) (b : Ext ℝ) (l : List (Fin p)) :
    ∀ c : Fin p → Ext ℝ, l.Nodup → q ∈ l → l.foldl (coord pen X (fun _ => .fin 1) z b) c q = .nan := by
  induction l with
  | nil => intro c _ h; cases h
  | cons a l ih =>
    intro c hd h
    rw [List.foldl_cons]
    rcases List.mem_cons.1 h with rfl | h
    · rw [foldl_coord_of_not_mem _ _ _ _ _ _ _ (List.nodup_cons.1 hd).1]
      exact coord_zero_column hr ht hq z b c
    · exact ih _ (List.nodup_cons.1 hd).2 h

/-- The result with a feature that is zero everywhere. -/
theorem cdF_zero_column [NeZero n] {pen : Pen} {lo hi : ℝ} (hlo : lo ≤ 0) (hhi : 0 ≤ hi) (tol : ℝ)
    (hr : pen.alpha * (1 - pen.l1) = 0) (ht : 0 ≤ pen.l1 * pen.alpha)
    (X : Fin n → Fin p → ℝ) (y : Fin n → ℝ) {q : Fin p} (hq : ∀ i, X i q = 0) (maxIter : Nat) :
    ∃ c b, cdF lo hi pen tol (maxIter + 1) X y = .ok (c, b, false) ∧ c q = .nan ∧
      (0 < maxIter → (∀ j, c j = .fin 0 ∨ c j = .nan) ∧ (pen.fi = true → b = .nan)) := by
  have hp : p ≠ 0 := by
    rintro rfl
    exact q.elim0
  have hw : (adjusted lo hi X y (fun _ => .fin 0) (.fin 0)).1 = fun _ => .fin 1 := by
    rw [adjusted_fin X y (fun _ => 0) 0 (inRange_zero hlo hhi pen X y)]
    funext i
    simp [adjustedResponse, Poisson.dot]
  have hF := foldl_zero_column hr ht hq (adjusted lo hi X y (fun _ => .fin 0) (.fin 0)).2
    (intercept pen X (fun _ => .fin 1) (adjusted lo hi X y (fun _ => .fin 0) (.fin 0)).2 fun _ => .fin 0)
    (List.finRange p) (fun _ => .fin 0) (List.nodup_finRange p) (List.mem_finRange q)
  generalize hF' : (List.finRange p).foldl (coord pen X (fun _ => .fin 1) (adjusted lo hi X y (fun _ => .fin 0) (.fin 0)).2
    (intercept pen X (fun _ => .fin 1) (adjusted lo hi X y (fun _ => .fin 0) (.fin 0)).2 fun _ => .fin 0)) (fun _ => .fin 0) = F at hF
  rw [cdF, loop_succ (F := F) (b' := intercept pen X (fun _ => .fin 1) (adjusted lo hi X y (fun _ => .fin 0) (.fin 0)).2 fun _ => .fin 0)
    hp maxIter _ _ _ (by simp only [sweep, hw, hF'])]
  rw [if_neg fun hcv => by
    have := hcv q
    rw [hF] at this
    exact this.elim]
  obtain ⟨c', b', h1, h2, h3, h4, h5⟩ := loop_nan_coef lo hi pen tol X y maxIter (nonzero F) F
    (intercept pen X (fun _ => .fin 1) (adjusted lo hi X y (fun _ => .fin 0) (.fin 0)).2 fun _ => .fin 0) hF
  refine ⟨c', b', h1, h2, fun hm => ⟨fun j => ?_, (h4 hm).2⟩⟩
  by_cases hj : F j = .fin 0
  · exact Or.inl (h5 j hj fun h => mem_nonzero.1 h hj)
  · exact Or.inr ((h4 hm).1 j (mem_nonzero.2 hj))

end Verif.PoissonFloat
