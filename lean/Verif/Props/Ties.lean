import Verif.Lemmas.Ties
/-!
C148: equally good candidates (`/repo/src/pyuoi/linear_model/base.py:312-322,434`, `utils.py:93-145`).
-/
namespace Verif.Props.Ties
open Verif.Py Verif.HeldOut Verif.Intersection Verif.Intersection.Spec Verif.Spec.Ties Verif.Ties
variable {K : Type} [Zero K] [DecidableEq K]

/-- C148: the candidate chosen by accuracy is the first of those that predict the most held-out labels, in the order of
    `supports_`. -/
theorem C148_accuracy {A : Arr3 K} {ts : List Int} {y : List Nat} {predict : List Bool → List Nat} (h1 : ts.length * A.n1 ≠ 1)
    (h2 : A.n2 ≠ 1) (h0 : ts ≠ [] ∧ A.n1 ≠ 0) (hl : ∀ S, (predict S).length = y.length) (hy : y ≠ []) :
    ∃ (rows : List (List Bool)) (i : Nat) (T : List Bool), intersection A (some ts) = .ok (.d2 rows) ∧ rows[i]? = some T ∧ chooseSupport A ts y predict = .ok T ∧
      IsFirstMostCorrect y predict rows i := by
  rw [chooseSupport_eq A ts hl hy]
  obtain ⟨rows, i, T, hr, -, -, hT, hc, hm, hf⟩ := chooseScored_spec h1 h2 h0
    (score := fun S => (.fin ((correct y (predict S) : ℚ) / y.length) : Ext ℚ)) (fun S => by simp)
  refine ⟨rows, i, T, hr, hT, hc, T, hT, fun S hS => ?_, fun j hj S hS => (acc_lt hy _ _).1 (hf j hj S hS)⟩
  by_contra h
  have := (hm S hS).symm.trans ((acc_lt hy _ _).2 (not_le.1 h))
  cases this

/-- C148 (partial), any score without NaN: every candidate that is part of the chosen one has a lower score, so that ties between
    nested candidates go to the smaller one.  Missing: candidates of which none is part of the other, see `C148_negation`. -/
theorem C148_partial {M : Type} [LinearOrder M] {A : Arr3 K} {ts : List Int} {score : List Bool → Ext M} (h1 : ts.length * A.n1 ≠ 1)
    (h2 : A.n2 ≠ 1) (h0 : ts ≠ [] ∧ A.n1 ≠ 0) (hn : ∀ S, score S ≠ .nan) :
    ∃ T, chooseScored A ts score = .ok T ∧ (∃ t ∈ ts, ∃ l < A.n1, IsStable A t l T) ∧
      ∀ S, (∃ t ∈ ts, ∃ l < A.n1, IsStable A t l S) → ltExt (score T) (score S) = false ∧
        (Part S T → ltExt (score S) (score T) = true) := by
  obtain ⟨rows, i, T, hr, hmem, hs, hT, hc, hm, hf⟩ := chooseScored_spec h1 h2 h0 hn
  refine ⟨T, hc, (hmem T).1 (List.mem_of_getElem? hT), fun S hS => ⟨hm S ((hmem S).2 hS), fun hp => ?_⟩⟩
  obtain ⟨j, hj⟩ := List.mem_iff_getElem?.1 ((hmem S).2 hS)
  exact hf j (part_before hs hT hj hp) S hj

/-- C148: a candidate without features is chosen unless some candidate has a higher score. -/
theorem C148_empty {M : Type} [LinearOrder M] {A : Arr3 K} {ts : List Int} {score : List Bool → Ext M} (h1 : ts.length * A.n1 ≠ 1)
    (h2 : A.n2 ≠ 1) (hn : ∀ S, score S ≠ .nan) {t : Int} (ht : t ∈ ts) {l : Nat} (hl : l < A.n1)
    (he : IsStable A t l (List.replicate A.n2 false))
    (hbest : ∀ S, (∃ t ∈ ts, ∃ l < A.n1, IsStable A t l S) → ltExt (score (List.replicate A.n2 false)) (score S) = false) :
    chooseScored A ts score = .ok (List.replicate A.n2 false) := by
  obtain ⟨T, hc, hT, hS⟩ := C148_partial h1 h2 (score := score) ⟨List.ne_nil_of_mem ht, by omega⟩ hn
  rw [hc]
  congr 1
  by_contra hne
  have hp : Part (List.replicate A.n2 false) T :=
    ⟨fun j hj => by rw [List.getElem?_replicate] at hj; split_ifs at hj; simp at hj, fun h => hne h.symm⟩
  have := (hS _ ⟨t, ht, l, hl, he⟩).2 hp
  rw [hbest T hT] at this
  cases this

/-- One bootstrap, two penalties, three features: `a` at the first penalty and `b` at the second. -/
def demo (a b : Nat → ℚ) : Arr3 ℚ where
  n0 := 1
  n1 := 2
  n2 := 3
  get _ l j := if l = 0 then a j else b j

/-- Nested candidates of equal accuracy: the smaller one. -/
example : chooseSupport (demo (fun _ => 1) fun j => if j = 1 then 1 else 0) [1] [0, 1, 1] (fun _ => [0, 0, 1]) =
    .ok [false, true, false] := by decide +kernel

example : ∃ (rows : List (List Bool)) (i : Nat) (T : List Bool), intersection (demo (fun _ => 1) fun j => if j = 1 then 1 else 0) (some [1]) = .ok (.d2 rows) ∧
    rows[i]? = some T ∧ chooseSupport (demo (fun _ => 1) fun j => if j = 1 then 1 else 0) [1] [0, 1, 1] (fun _ => [0, 0, 1]) = .ok T ∧
    IsFirstMostCorrect [0, 1, 1] (fun _ => [0, 0, 1]) rows i :=
  C148_accuracy (by decide) (by decide) (by decide) (fun _ => rfl) (by decide)

example : ∃ T, chooseScored (demo (fun _ => 1) fun j => if j = 1 then 1 else 0) [1] (fun _ => (.fin 1 : Ext ℚ)) = .ok T ∧
    T = [false, true, false] := ⟨_, by decide +kernel, rfl⟩

example : chooseScored (demo (fun _ => 1) fun _ => 0) [1] (fun _ => (.fin 1 : Ext ℚ)) = .ok [false, false, false] :=
  C148_empty (A := demo (fun _ => 1) fun _ => 0) (by decide) (by decide) (by simp) (t := 1) (by decide) (l := 1) (by decide)
    ⟨rfl, by decide +kernel⟩ (fun S _ => by simp [ltExt])

/-- C148 is false for candidates of which none is part of the other: of two equally accurate candidates the one with two features
    is chosen, not the one with a single feature; with the order of the features reversed it is the other way round. -/
theorem C148_negation :
    chooseSupport (demo (fun j => if j = 0 then 1 else 0) fun j => if j = 0 then 0 else 1) [1] [0, 1] (fun _ => [0, 1]) =
      .ok [false, true, true] ∧
    chooseSupport (demo (fun j => if j = 2 then 1 else 0) fun j => if j = 2 then 0 else 1) [1] [0, 1] (fun _ => [0, 1]) =
      .ok [false, false, true] ∧
    intersection (demo (fun j => if j = 0 then 1 else 0) fun j => if j = 0 then 0 else 1) (some [1]) =
      .ok (.d2 [[false, true, true], [true, false, false]]) ∧
    size [true, false, false] < size [false, true, true] := by decide +kernel

end Verif.Props.Ties
