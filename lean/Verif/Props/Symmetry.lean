import Verif.Lemmas.Symmetry
import Verif.Props.QuadConverge
import Mathlib.Tactic.FinCases
/-!
The minimiser does not depend on the order, the signs or (without a penalty) the axes of the variables (C119).
-/
namespace Verif.Lbfgs
open Finset Spec

variable {n : Nat} {σ K : Type} [Field K] [LinearOrder K] [IsStrictOrderedRing K]

/-! ### C119 -/

/-- C119 without penalty: `fmin_lbfgs` started at the rotated point on the rotated objective evaluates the
    rotated points and ends with the rotated result, or does not end either. -/
theorem C119_rotation (T : (Fin n → K) → Fin n → K) (hT : Rotation T) (c c' : Callables n σ K)
    (h : SameProblem T c c') (a : Args K) (hc : a.par.c = 0) (x0 : Fin n → K) (cb : σ) :
    (∀ res tr, Fmin c a x0 cb res tr → Fmin c' a (T x0) cb (changed T res) (tr.map T)) ∧
    ∀ res' tr', Fmin c' a (T x0) cb res' tr' →
      ∃ res tr, Fmin c a x0 cb res tr ∧ res' = changed T res ∧ tr' = tr.map T := by
  have hC : ∀ p, fminPar a = .ok p → Compat T (fillEnd n p) := by
    intro p hp
    have : (fillEnd n p).c = 0 := by
      obtain ⟨_, ls, rfl⟩ := fminPar_form hp
      rw [fillEnd_eq]
      exact hc
    exact ⟨hT, fun h => absurd this h, fun h => absurd this h, fun h => absurd this h, fun h => absurd this h,
      fun h => absurd this h⟩
  exact ⟨fun _ _ hf => fmin_map h hC hf, fun _ _ hf => fmin_unmap h hC hf⟩

/-- The rotation by the angle with cosine 3/5 and sine 4/5. -/
noncomputable def exRot (x : Fin 2 → ℝ) : Fin 2 → ℝ := ![3/5 * x 0 - 4/5 * x 1, 4/5 * x 0 + 3/5 * x 1]

/-- The inverse rotation. -/
noncomputable def exRotBack (x : Fin 2 → ℝ) : Fin 2 → ℝ := ![3/5 * x 0 + 4/5 * x 1, -4/5 * x 0 + 3/5 * x 1]

theorem exRot_rotation : Rotation exRot := by
  refine ⟨fun x y => ?_, fun a x => ?_, fun x y => ?_⟩
  · funext i; fin_cases i <;> simp [exRot] <;> ring
  · funext i; fin_cases i <;> simp [exRot] <;> ring
  · simp [exRot, Fin.sum_univ_two]; ring

theorem exRot_back (x : Fin 2 → ℝ) : exRotBack (exRot x) = x := by
  funext i
  fin_cases i <;> simp [exRot, exRotBack] <;> ring

/-- The rotated bowl. -/
noncomputable def exBowlRot : Callables 2 Unit ℝ :=
  ⟨Real.sqrt, fun y => ((exBowl2.f (exRotBack y)).1, exRot (exBowl2.f (exRotBack y)).2),
    fun s _ _ _ _ _ _ _ _ => (.ok none, s)⟩

/-- Rotating the bowl: every call on `(y₀² + 2 y₁²) / 2 - y₁` corresponds to one on the rotated bowl. -/
example (a : Args ℝ) (hc : a.par.c = 0) (x0 x : Fin 2 → ℝ) (tr : List (Fin 2 → ℝ))
    (h : Fmin exBowl2 a x0 () (.returned x none) tr) :
    Fmin exBowlRot a (exRot x0) () (.returned (exRot x) none) (tr.map exRot) :=
  (C119_rotation exRot exRot_rotation exBowl2 exBowlRot
    ⟨rfl, fun x => by simp only [exBowlRot, exRot_back], fun _ _ _ _ _ _ _ _ _ => rfl⟩ a hc x0 ()).1 _ _ h

/-- C119 with a penalty: the same for a change of the order and of the signs of the variables that does not
    exchange penalised and unpenalised variables. -/
theorem C119_reorder (π : Equiv.Perm (Fin n)) (sign : Fin n → K) (hs : ∀ i, sign i = 1 ∨ sign i = -1)
    (c c' : Callables n σ K) (h : SameProblem (reorder π sign) c c') (a : Args K)
    (hr : ∀ i : Fin n, Penalised a.par.start (if a.par.stop < 0 then n else a.par.stop) i ↔
      Penalised a.par.start (if a.par.stop < 0 then n else a.par.stop) (π i)) (x0 : Fin n → K) (cb : σ) :
    (∀ res tr, Fmin c a x0 cb res tr →
      Fmin c' a (reorder π sign x0) cb (changed (reorder π sign) res) (tr.map (reorder π sign))) ∧
    ∀ res' tr', Fmin c' a (reorder π sign x0) cb res' tr' →
      ∃ res tr, Fmin c a x0 cb res tr ∧ res' = changed (reorder π sign) res ∧ tr' = tr.map (reorder π sign) := by
  have hC : ∀ p, fminPar a = .ok p → Compat (reorder π sign) (fillEnd n p) := by
    intro p hp
    obtain ⟨h0, ls, rfl⟩ := fminPar_form hp
    refine reorder_compat π sign hs _ ?_ (fun _ => ?_)
    · rw [fillEnd_eq]
      exact h0
    · rw [fillEnd_eq]
      exact hr
  exact ⟨fun _ _ hf => fmin_map h hC hf, fun _ _ hf => fmin_unmap h hC hf⟩

/-- The objective `c` of `(-y₁, y₀, y₂)`. -/
noncomputable def exSwapped (c : Callables 3 Unit ℝ) : Callables 3 Unit ℝ :=
  ⟨c.sqrt, fun y => ((c.f ![y 1, -y 0, y 2]).1,
      ![-(c.f ![y 1, -y 0, y 2]).2 1, (c.f ![y 1, -y 0, y 2]).2 0, (c.f ![y 1, -y 0, y 2]).2 2]),
    fun s _ _ _ _ _ _ _ _ => (.ok none, s)⟩

/-- Exchanging the two penalised of three variables and the sign of the first one. -/
example (c : Callables 3 Unit ℝ) (hp : ∀ cb x g f xn gn st k ls, c.progress cb x g f xn gn st k ls = (.ok none, cb))
    (a : Args ℝ) (ha : a.par.c = 1/2) (hr : a.par.start = 0 ∧ a.par.stop = 2) (x0 x : Fin 3 → ℝ)
    (tr : List (Fin 3 → ℝ)) (h : Fmin c a x0 () (.returned x none) tr) :
    Fmin (exSwapped c) a ![-x0 1, x0 0, x0 2] ()
      (.returned ![-x 1, x 0, x 2] none) (tr.map fun x => ![-x 1, x 0, x 2]) := by
  have e : (fun x : Fin 3 → ℝ => ![-x 1, x 0, x 2]) = reorder (Equiv.swap 0 1) ![-1, 1, 1] := by
    funext x i
    fin_cases i <;> simp [reorder, Equiv.swap_apply_def]
  have e' : ∀ x : Fin 3 → ℝ, ![-x 1, x 0, x 2] = reorder (Equiv.swap 0 1) ![-1, 1, 1] x := fun x => congrFun e x
  rw [e, e' x0, e' x]
  refine (C119_reorder (Equiv.swap 0 1) ![-1, 1, 1] (fun i => by fin_cases i <;> simp) c (exSwapped c)
    ⟨rfl, fun x => ?_, fun _ _ _ _ _ _ _ _ _ => ?_⟩ a (fun i => ?_) x0 ()).1 _ _ h
  · have : ![(![-x 1, x 0, x 2] : Fin 3 → ℝ) 1, -(![-x 1, x 0, x 2] : Fin 3 → ℝ) 0, (![-x 1, x 0, x 2] : Fin 3 → ℝ) 2]
        = x := by
      funext i
      fin_cases i <;> simp
    simp only [exSwapped, ← e']
    rw [this]
  · rw [hp]; rfl
  · rw [hr.1, hr.2]
    fin_cases i <;> decide

end Verif.Lbfgs
