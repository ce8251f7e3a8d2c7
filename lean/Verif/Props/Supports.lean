import Verif.Lemmas.Supports
import Verif.Props.Intersection
import Verif.Props.Fit
/-!
The candidate supports of a fit.
-/
namespace Verif.Supports
open Verif.Py Verif.Intersection Verif.Fit Verif.Spec.Fit Verif.Spec.Supports

variable {K G S M RP : Type}

/-- C111: the candidate supports of a serial fit are the sets of coefficients that are nonzero in at least
    `t` of the selection bootstraps at one parameter, for `t` among the thresholds; the coefficients are
    those of the selection solver, reset before each bootstrap and fitted on its training rows for all
    parameters in turn.  Missing: a single pair of threshold and parameter, and a single coefficient
    (C03, C04). -/
theorem C111_supports_partial [LinearOrder K] [Field K] {env : Env K G S M RP} (hw : SelShaped env)
    (hs : env.glm = false ∨ env.outDim ≤ 1 ∨ env.shared = false)
    (h1 : env.thresholds.length * env.regParams.length ≠ 1) (h2 : env.nFeat * env.outDim ≠ 1) {g : G}
    {s : S} {st : FitState K} (h : fit env 1 0 g s = .ret st) :
    ∃ splits g1, ∃ coef : Nat → Nat → List K, ∃ rows : List (List Bool),
      Draws env false g splits g1 ∧ splits.length = env.nBootsSel ∧
      (∀ b sp, splits[b]? = some sp → ∃ s0, Sweeps env sp.train (env.reset s0) env.regParams
        ((List.range env.regParams.length).map (coef b))) ∧
      st.supports = .d2 rows ∧ rows.Nodup ∧
      ∀ mask, mask ∈ rows ↔ ∃ t ∈ env.thresholds, ∃ l < env.regParams.length,
        mask.length = env.nFeat * env.outDim ∧ ∀ j < env.nFeat * env.outDim,
          mask[j]? = some true ↔ t ≤ (votes coef env.nBootsSel l j : Int) := by
  obtain ⟨p, A, coef, hp, hI, e0, e1, e2, hsw, hget⟩ := arr_of_fit hw h
  have hd := draws_of_drawList hp
  have hex : ∃ rows, env.intersect A = .ok (.d2 rows) ∧
      (∀ row, row ∈ rows ↔ ∃ t ∈ env.thresholds, ∃ l < A.n1, Spec.IsStable A t l row) ∧ rows.Nodup := by
    have h1' : env.thresholds.length * A.n1 ≠ 1 := by rw [e1]; exact h1
    have h2' : A.n2 ≠ 1 := by rw [e2]; exact h2
    unfold Env.intersect
    cases hglm : env.glm with
    | false =>
      obtain ⟨rows, a, b, c, -⟩ := C03_intersection_partial A env.thresholds h1' h2'
      exact ⟨rows, by simpa using a, b, c⟩
    | true =>
      have hs' : env.outDim ≤ 1 ∨ env.shared = false := by
        rcases hs with hs | hs
        · rw [hglm] at hs; cases hs
        · exact hs
      obtain ⟨rows, a, b, c, -⟩ := C06_separate_partial A env.thresholds env.outDim env.shared hs' h1' h2'
      exact ⟨rows, by simpa using a, b, c⟩
  obtain ⟨rows, hr, hm, hn⟩ := hex
  refine ⟨p.1, p.2, coef, rows, hd.1, hd.2, hsw, ?_, hn, fun mask => ?_⟩
  · rw [hr] at hI; injection hI with hI; exact hI.symm
  · rw [hm]
    refine exists_congr fun t => and_congr_right fun _ => exists_congr fun l => ?_
    rw [e1]
    refine and_congr_right fun hl => ?_
    unfold Spec.IsStable
    rw [e2]
    refine and_congr_right fun _ => forall_congr' fun j => imp_congr_right fun hj => ?_
    rw [votes_eq e0 fun b hb => hget b hb l hl j hj]

/-- The serial fit of `demo` (two bootstraps, two parameters, two features). -/
example : SelShaped demo ∧ (demo.glm = false ∨ demo.outDim ≤ 1 ∨ demo.shared = false) ∧
    demo.thresholds.length * demo.regParams.length ≠ 1 ∧ demo.nFeat * demo.outDim ≠ 1 ∧
    fit demo 1 0 0 0 = .ret demoSt :=
  ⟨fun _ _ _ _ _ => rfl, by decide, by decide, by decide, demo_serial 0⟩

/-- C111, several outputs with a common support: a feature belongs to a candidate if its coefficient for
    some output is nonzero in enough bootstraps.  Missing: a single pair of threshold and parameter (C06). -/
theorem C111_shared_partial [LinearOrder K] [Field K] {env : Env K G S M RP} (hw : SelShaped env)
    (hglm : env.glm = true) (hD : 1 < env.outDim) (hsh : env.shared = true) (hf : 0 < env.nFeat)
    (h1 : 2 ≤ env.thresholds.length * env.regParams.length) {g : G} {s : S} {st : FitState K}
    (h : fit env 1 0 g s = .ret st) :
    ∃ splits g1, ∃ coef : Nat → Nat → List K, ∃ rows : List (List Bool),
      Draws env false g splits g1 ∧ splits.length = env.nBootsSel ∧
      (∀ b sp, splits[b]? = some sp → ∃ s0, Sweeps env sp.train (env.reset s0) env.regParams
        ((List.range env.regParams.length).map (coef b))) ∧
      st.supports = .d2 rows ∧ rows.Nodup ∧
      ∀ mask, mask ∈ rows ↔ ∃ t ∈ env.thresholds, ∃ l < env.regParams.length,
        mask.length = env.nFeat ∧ ∀ j < env.nFeat, mask[j]? = some true ↔
          ∃ c < env.outDim, t ≤ (votes coef env.nBootsSel l (c * env.nFeat + j) : Int) := by
  obtain ⟨p, A, coef, hp, hI, e0, e1, e2, hsw, hget⟩ := arr_of_fit hw h
  have hd := draws_of_drawList hp
  obtain ⟨rows, hr, hm, hn, -⟩ := C06_union_over_classes_partial A env.thresholds env.outDim env.nFeat hD
    hf (by rw [e2, Env.nCoef, Nat.mul_comm]) (by rw [e1]; exact h1)
  refine ⟨p.1, p.2, coef, rows, hd.1, hd.2, hsw, ?_, hn, fun mask => ?_⟩
  · unfold Env.intersect at hI
    rw [hglm, hsh, if_pos rfl, hr] at hI
    injection hI with hI; exact hI.symm
  · rw [hm]
    refine exists_congr fun t => and_congr_right fun _ => exists_congr fun l => ?_
    rw [e1]
    refine and_congr_right fun hl => ?_
    unfold Spec.IsStableAny
    have hlen : mask.length * env.outDim = A.n2 ↔ mask.length = env.nFeat := by
      rw [e2, Env.nCoef]
      exact Nat.mul_left_inj (by omega)
    rw [hlen]
    refine and_congr_right fun hml => ?_
    rw [hml]
    refine forall_congr' fun j => imp_congr_right fun hj => iff_congr Iff.rfl ?_
    refine exists_congr fun c => and_congr_right fun hc => ?_
    have hlt : c * env.nFeat + j < env.nCoef := by
      calc c * env.nFeat + j < c * env.nFeat + env.nFeat := by omega
        _ = (c + 1) * env.nFeat := by ring
        _ ≤ env.outDim * env.nFeat := Nat.mul_le_mul_right _ hc
        _ = env.nCoef := Nat.mul_comm _ _
    rw [votes_eq e0 fun b hb => hget b hb l hl _ hlt]

/-- Two classes: `demo` with four coefficients. -/
def demoTwo : Env ℚ Nat ℚ (List ℚ) ℚ :=
  { demo with
    outDim := 2, glm := true, selCoef := fun s => [0, s - 3, 0, s]
    fitEst := fun mask _ => .ok (List.replicate (2 * mask.count true) 1)
    fitIntercept := fun _ => .ok ⟨[2], .f64, [.f 7, .f 8]⟩ }

example : SelShaped demoTwo ∧ demoTwo.glm = true ∧ 1 < demoTwo.outDim ∧ demoTwo.shared = true ∧
    0 < demoTwo.nFeat ∧ 2 ≤ demoTwo.thresholds.length * demoTwo.regParams.length ∧
    ((fit demoTwo 1 0 0 0).outcome.map fun r => r.map (·.supports)) = some (.ok (.d2 [[false, true]])) :=
  ⟨fun _ _ _ _ _ => rfl, rfl, by decide, rfl, by decide, by decide, by decide +kernel⟩

/-- One threshold, one parameter, two features of which none is selected. -/
def demoPair : Env ℚ Nat ℚ (List ℚ) ℚ := { demo with regParams := [1], selCoef := fun _ => [0, 0] }

/-- C111 is false with a single threshold and a single parameter: the fit of `demoPair` completes, the
    stable support is the empty set of the two coefficients, but the result is the vector `[False]`. -/
theorem C111_negation : SelShaped demoPair ∧ demoPair.nFeat * demoPair.outDim = 2 ∧
    ∃ st, fit demoPair 1 0 0 0 = .ret st ∧ (∀ rows, st.supports ≠ .d2 rows) ∧ st.supports = .d1 [false] := by
  refine ⟨fun _ _ _ _ _ => rfl, rfl, ?_⟩
  have h : ((fit demoPair 1 0 0 0).outcome.map fun r => r.map (·.supports)) =
      some (.ok (.d1 [false])) := by decide +kernel
  rcases ho : (fit demoPair 1 0 0 0).outcome with _ | r
  · rw [ho] at h; cases h
  · rw [ho] at h
    rcases r with e | st
    · cases h
    · have hs : st.supports = .d1 [false] := Except.ok.inj (Option.some.inj h)
      exact ⟨st, ret_of_outcome ho, (fun rows hr => by rw [hs] at hr; cases hr), hs⟩

end Verif.Supports
