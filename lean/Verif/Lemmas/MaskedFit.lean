import Mathlib.Tactic.Ring
import Mathlib.Tactic.FieldSimp
import Mathlib.Data.Rat.Lemmas
import Verif.Spec.MaskedFit
/-!
Calls of `MaskedCoefLogisticRegression.fit`, successful and failed.
-/
namespace Verif.MaskedFit
open Verif.Py Verif.Labels Verif.Spec.MaskedFit

variable {L K : Type}

/-- The data handed to the optimisation. -/
def seen [Sub K] [Div K] (s : Settings K) (out : Outside K) (X : List (List K)) : List (List K) :=
  if s.standardize then X.map (standard (out.scaler X)) else X

/-- The stored attributes for a matrix of parameters. -/
def storedCoef [Div K] (s : Settings K) (sc : List K) (W : List (List K)) : List (List K) :=
  if s.standardize then (if s.fi then W.map List.dropLast else W).map fun r => List.zipWith (· / ·) r sc
  else if s.fi then W.map List.dropLast else W

def storedIntercept [Zero K] (s : Settings K) (rows : Nat) (W : List (List K)) : List K :=
  if s.fi then W.map (·.getLastD 0) else List.replicate rows 0

theorem path_ok [Zero K] [Add K] [DecidableEq K] {out : Outside K} {k p cols : Nat} {c : Call K}
    {W : List (List K)} (h : path out k p cols c = .ok W) : out.optimise c = .ok W := by
  unfold path at h
  split_ifs at h
  exact h

theorem path_start [Zero K] [Add K] [DecidableEq K] {out : Outside K} {k p cols : Nat} {c : Call K}
    {W : List (List K)} (h : path out k p cols c = .ok W) :
    (c.start.all (startFits c.multi k p cols)) = true := by
  unfold path at h
  split_ifs at h with h1 h2
  exact Bool.eq_true_of_not_eq_false h1

/-- A successful call. -/
theorem fit_ok [LinearOrder L] [LinearOrder K] [Field K] {s : Settings K} {out : Outside K} {o o' : Obj L K}
    {X : List (List K)} {y : List L} {mask : Option (List (List K))}
    (h : fit s out o X y mask = (o', .ok ())) :
    ∃ c rows W, validate s = .ok (c.C, c.maxIter, c.tol) ∧ c.X = seen s out X ∧ c.y = encode y ∧
      maskedRows s.multinomial (uniq (encode y)).length = .ok rows ∧ warmCoef s o = .ok c.start ∧
      out.optimise c = .ok W ∧ o'.coef = some (storedCoef s (out.scaler X).2 W) ∧
      o'.intercept = some (storedIntercept s rows W) := by
  unfold fit at h
  cases hv : validate s with
  | error e => rw [hv] at h; cases h
  | ok v =>
    obtain ⟨C, m, t⟩ := v
    rw [hv] at h
    simp only at h
    split at h
    · cases h
    split at h
    · cases h
    rename_i rows hrows
    split at h
    · cases h
    rename_i mask' hm
    split at h
    · cases h
    rename_i start hs
    split at h
    · cases h
    rename_i W hW
    injection h with h _
    subst h
    refine ⟨⟨seen s out X, encode y, s.multinomial || decide (2 < (uniq (encode y)).length), C, t, m, start,
      mask'⟩, rows, W, rfl, rfl, rfl, hrows, ?_, ?_, rfl, rfl⟩
    · exact hs
    · exact path_ok hW

/-- The starting point and the mask of a successful call. -/
theorem fit_ok_shapes [LinearOrder L] [LinearOrder K] [Field K] {s : Settings K} {out : Outside K}
    {o o' : Obj L K} {X : List (List K)} {y : List L} {mask : Option (List (List K))}
    (h : fit s out o X y mask = (o', .ok ())) :
    ∃ c rows W, maskedRows s.multinomial (uniq (encode y)).length = .ok rows ∧
      c.multi = (s.multinomial || decide (2 < (uniq (encode y)).length)) ∧ out.optimise c = .ok W ∧
      warmCoef s o = .ok c.start ∧
      (c.start.all (startFits c.multi (uniq (encode y)).length (((seen s out X).headD []).length)
        (((seen s out X).headD []).length + if s.fi then 1 else 0))) = true ∧
      (match mask with
        | none => c.mask = none
        | some m => ∃ m', reshapeMask c.multi rows m = .ok m' ∧ c.mask = some m') := by
  unfold fit at h
  cases hv : validate s with
  | error e => rw [hv] at h; cases h
  | ok v =>
    obtain ⟨C, m, t⟩ := v
    rw [hv] at h
    simp only at h
    split at h
    · cases h
    split at h
    · cases h
    rename_i rows hrows
    split at h
    · cases h
    rename_i mask' hm
    split at h
    · cases h
    rename_i start hs
    split at h
    · cases h
    rename_i W hW
    refine ⟨_, rows, W, hrows, rfl, path_ok hW, ?_, ?_, ?_⟩
    · exact hs
    · exact path_start hW
    · cases mask with
      | none => cases hm; rfl
      | some m =>
        simp only at hm ⊢
        cases hr : reshapeMask (s.multinomial || decide (2 < (uniq (encode y)).length)) rows m with
        | error e => rw [hr] at hm; cases hm
        | ok m' => rw [hr] at hm; cases hm; exact ⟨m', rfl, rfl⟩

theorem range_blocks {α : Type} (q : Nat) : ∀ (n : Nat) (l : List α), l.length = n * q →
    ((List.range n).map fun c => (l.drop (c * q)).take q).flatten = l ∧
      ∀ r ∈ (List.range n).map fun c => (l.drop (c * q)).take q, r.length = q
  | 0, l, h => by
    have : l = [] := List.eq_nil_of_length_eq_zero (by simpa using h)
    subst this; simp
  | n + 1, l, h => by
    have hl : (l.drop q).length = n * q := by
      rw [List.length_drop, h, Nat.succ_mul]; omega
    obtain ⟨h1, h2⟩ := range_blocks q n (l.drop q) hl
    have e : ((List.range (n + 1)).map fun c => (l.drop (c * q)).take q) =
        l.take q :: (List.range n).map fun c => ((l.drop q).drop (c * q)).take q := by
      rw [List.range_succ_eq_map, List.map_cons, List.map_map]
      simp only [Nat.zero_mul, List.drop_zero, List.cons.injEq, true_and]
      refine List.map_congr_left fun c _ => ?_
      simp only [Function.comp_apply, List.drop_drop, Nat.succ_mul]
      congr 2; omega
    rw [e]
    refine ⟨by rw [List.flatten_cons, h1, List.take_append_drop], fun r hr => ?_⟩
    rcases List.mem_cons.mp hr with rfl | hr
    · rw [List.length_take, h, Nat.succ_mul]; omega
    · exact h2 r hr

/-- A failed call. -/
theorem fit_error [LinearOrder L] [LinearOrder K] [Field K] {s : Settings K} {out : Outside K} {o o' : Obj L K}
    {X : List (List K)} {y : List L} {mask : Option (List (List K))} {e : PyErr}
    (h : fit s out o X y mask = (o', .error e)) :
    o'.coef = o.coef ∧ (o'.intercept = o.intercept ∨
      ∃ rows st, maskedRows s.multinomial (uniq (encode y)).length = .ok rows ∧ warmCoef s o = .ok st ∧
        o'.intercept = some (List.replicate rows 0)) := by
  unfold fit at h
  cases hv : validate s with
  | error e => rw [hv] at h; cases h; exact ⟨rfl, Or.inl rfl⟩
  | ok v =>
    obtain ⟨C, m, t⟩ := v
    rw [hv] at h
    simp only at h
    split at h
    · cases h; exact ⟨rfl, Or.inl rfl⟩
    split at h
    · cases h; exact ⟨rfl, Or.inl rfl⟩
    rename_i rows hrows
    split at h
    · cases h; exact ⟨rfl, Or.inl rfl⟩
    rename_i mask' hm
    split at h
    · cases h; exact ⟨rfl, Or.inl rfl⟩
    rename_i start hs
    split at h
    · cases h
      exact ⟨rfl, Or.inr ⟨rows, start, hrows, hs, rfl⟩⟩
    · cases h

/-! ### Values of linear models -/

theorem inner_cons [Mul K] [AddMonoid K] (a b : K) (u v : List K) :
    inner (a :: u) (b :: v) = a * b + inner u v := by simp [inner]

theorem inner_comm [Field K] (u v : List K) : inner u v = inner v u := by
  unfold inner
  rw [List.zipWith_comm]
  simp only [mul_comm]

theorem foldr_inner [Field K] (u v : List K) :
    (List.zipWith (· * ·) u v).foldr (· + ·) 0 = inner u v := rfl

/-- With the intercept at the end. -/
theorem value_intercept [Field K] {r z : List K} (h : r.length = z.length + 1) :
    value true r z = inner r.dropLast z + r.getLastD 0 := by
  unfold value
  rw [if_pos rfl]
  induction z generalizing r with
  | nil =>
    rcases r with _ | ⟨a, _ | ⟨b, r⟩⟩ <;> simp at h
    simp [inner]
  | cons b z ih =>
    rcases r with _ | ⟨a, _ | ⟨c, r⟩⟩
    · simp at h
    · simp at h
    · have := ih (r := c :: r) (by simpa using h)
      rw [List.cons_append, inner_cons, this, List.dropLast_cons_cons, inner_cons]
      simp [add_assoc]

/-- Dividing the coefficients by the scale amounts to dividing the features; the means are left over. -/
theorem inner_scaled [Field K] {r x m sc : List K} (h1 : r.length = x.length) (h2 : m.length = x.length)
    (h3 : sc.length = x.length) :
    inner x (List.zipWith (· / ·) r sc) =
      inner r (standard (m, sc) x) + inner m (List.zipWith (· / ·) r sc) := by
  unfold standard
  induction x generalizing r m sc with
  | nil =>
    have e1 := List.eq_nil_of_length_eq_zero h1
    have e2 := List.eq_nil_of_length_eq_zero h2
    subst e1 e2
    simp [inner]
  | cons a x ih =>
    rcases r with _ | ⟨b, r⟩
    · simp at h1
    rcases m with _ | ⟨c, m⟩
    · simp at h2
    rcases sc with _ | ⟨d, sc⟩
    · simp at h3
    have := ih (r := r) (m := m) (sc := sc) (by simpa using h1) (by simpa using h2) (by simpa using h3)
    simp only [List.zipWith_cons_cons, inner_cons] at this ⊢
    rw [this]
    ring

theorem zipWith_map_both {A B C D : Type} (f : B → C → D) (g : A → B) (h : A → C) (l : List A) :
    List.zipWith f (l.map g) (l.map h) = l.map fun a => f (g a) (h a) := by
  induction l with
  | nil => rfl
  | cons a l ih => simp [ih]

/-- The decision values of the stored attributes. -/
theorem stored_decision [Field K] {s : Settings K} {o : Obj L K} {rows : Nat} {W : List (List K)}
    {m sc x : List K} (hc : o.coef = some (storedCoef s sc W))
    (hi : o.intercept = some (storedIntercept s rows W)) (hW : Shaped s rows x.length W)
    (hm : s.standardize = true → m.length = x.length) (hsc : s.standardize = true → sc.length = x.length) :
    o.decision x = .ok (List.zipWith (fun r w => value s.fi r (if s.standardize then standard (m, sc) x else x) +
      (if s.standardize then inner m w else 0)) W (storedCoef s sc W)) := by
  have hlw : (storedCoef s sc W).length = W.length := by
    unfold storedCoef; split_ifs <;> simp
  have hli : (storedIntercept s rows W).length = W.length := by
    unfold storedIntercept
    split_ifs
    · simp
    · rw [List.length_replicate, hW.1]
  unfold Obj.decision
  rw [hc, hi]
  simp only [hlw, hli, if_true, foldr_inner]
  congr 1
  have hlz : (if s.standardize then standard (m, sc) x else x).length = x.length := by
    split_ifs with h
    · simp [standard, hm h, hsc h]
    · rfl
  have hst : ∀ r : List K, r.length = x.length →
      inner x (if s.standardize then List.zipWith (· / ·) r sc else r) =
        inner r (if s.standardize then standard (m, sc) x else x) +
          (if s.standardize then inner m (List.zipWith (· / ·) r sc) else 0) := by
    intro r hr
    split_ifs with h
    · exact inner_scaled hr (hm h) (hsc h)
    · rw [add_zero, inner_comm]
  generalize (if s.standardize then standard (m, sc) x else x) = z at hlz hst
  cases hfi : s.fi with
  | true =>
    have e1 : storedCoef s sc W = W.map fun r => if s.standardize then
        List.zipWith (· / ·) r.dropLast sc else r.dropLast := by
      unfold storedCoef
      cases hs : s.standardize <;> simp [hfi]
    have e2 : storedIntercept s rows W = W.map (·.getLastD 0) := by
      unfold storedIntercept; rw [hfi]; rfl
    rw [e1, e2, zipWith_map_both]
    conv_rhs => rw [show List.zipWith _ W _ = List.zipWith _ (W.map id) _ by rw [List.map_id], zipWith_map_both]
    refine List.map_congr_left fun r hr => ?_
    have hl := hW.2 r hr
    rw [hfi, if_pos rfl] at hl
    have hd : r.dropLast.length = x.length := by simp [hl]
    rw [hst _ hd, id, value_intercept (by rw [hl, hlz])]
    split_ifs <;> ring
  | false =>
    have e1 : storedCoef s sc W = W.map fun r => if s.standardize then
        List.zipWith (· / ·) r sc else r := by
      unfold storedCoef
      cases hs : s.standardize <;> simp [hfi]
    have e2 : storedIntercept s rows W = W.map fun _ => 0 := by
      unfold storedIntercept; rw [hfi, ← hW.1]
      simp
    rw [e1, e2, zipWith_map_both]
    conv_rhs => rw [show List.zipWith _ W _ = List.zipWith _ (W.map id) _ by rw [List.map_id], zipWith_map_both]
    refine List.map_congr_left fun r hr => ?_
    have hl := hW.2 r hr
    rw [hfi] at hl
    have hd : r.length = x.length := by simpa using hl
    rw [hst _ hd, id]
    simp only [value, add_zero]
    split_ifs <;> simp_all

/-! ### Objects that cannot be fitted again -/

/-- `coef_` and `intercept_` are of different numbers of classes. -/
def Broken (o : Obj L K) : Prop := ∃ w b, o.coef = some w ∧ o.intercept = some b ∧ w.length ≠ b.length

theorem fit_broken [LinearOrder L] [LinearOrder K] [Field K] {s : Settings K} (hw : s.warmStart = true)
    (hf : s.fi = true) (out : Outside K) {o : Obj L K} (hb : Broken o) (X : List (List K)) (y : List L)
    (mask : Option (List (List K))) :
    (∃ e, (fit s out o X y mask).2 = .error e) ∧ Broken (fit s out o X y mask).1 := by
  obtain ⟨w, b, hc, hi, hl⟩ := hb
  have hno : ∀ st, warmCoef s o ≠ .ok st := by
    intro st h
    unfold warmCoef at h
    rw [hw, if_pos rfl, hc, hf] at h
    simp only [if_true, hi, if_neg hl] at h
    cases h
  rcases hr : fit s out o X y mask with ⟨o', _ | u⟩
  · rename_i e
    obtain ⟨h1, h2 | ⟨rows, st, -, h3, -⟩⟩ := fit_error hr
    · exact ⟨⟨e, rfl⟩, w, b, by rw [h1, hc], by rw [h2, hi], hl⟩
    · exact absurd h3 (hno st)
  · obtain ⟨c, rows, W, -, -, -, -, h5, -⟩ := fit_ok hr
    exact absurd h5 (hno _)

end Verif.MaskedFit
