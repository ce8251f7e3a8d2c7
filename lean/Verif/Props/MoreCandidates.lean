import Verif.Lemmas.MoreCandidates
/-!
C150: further penalties and `stability_selection` values (`/repo/src/pyuoi/linear_model/base.py:312-322,384-389,434`).
-/
namespace Verif.Props.MoreCandidates
open Verif.Py Verif.HeldOut Verif.Intersection Verif.Intersection.Spec Verif.Spec.Ties Verif.Ties
open Verif.Spec.MoreCandidates Verif.Lemmas.MoreCandidates
variable {K : Type} [Zero K] [DecidableEq K]

/-- C150 (partial), any score without NaN: with further penalties and thresholds the candidate chosen in a bootstrap does not have
    a lower score; if it was a candidate before, it was chosen before.  Missing: NaN (`C150_negation`), and single
    pairs of a threshold and a penalty. -/
theorem C150_partial {M : Type} [LinearOrder M] {A B : Arr3 K} {ts us : List Int} {score : List Bool → Ext M} (hB : Extends A B)
    (ht : ∀ t ∈ ts, t ∈ us) (h1 : ts.length * A.n1 ≠ 1) (h1' : us.length * B.n1 ≠ 1) (h2 : A.n2 ≠ 1) (h0 : ts ≠ [] ∧ A.n1 ≠ 0)
    (hn : ∀ S, score S ≠ .nan) :
    ∃ T T', chooseScored A ts score = .ok T ∧ chooseScored B us score = .ok T' ∧ ltExt (score T') (score T) = false ∧
      ((∃ t ∈ ts, ∃ l < A.n1, IsStable A t l T') → T' = T) := by
  obtain ⟨h00, h22, hp⟩ := hB
  have h0' : us ≠ [] ∧ B.n1 ≠ 0 := by
    obtain ⟨t, htt⟩ := List.exists_mem_of_ne_nil ts h0.1
    obtain ⟨l, hl, -⟩ := hp 0 (Nat.pos_of_ne_zero h0.2)
    exact ⟨List.ne_nil_of_mem (ht t htt), by omega⟩
  obtain ⟨rows, i, T, hr, hmem, hs, hT, hc, hm, hf⟩ := chooseScored_spec h1 h2 h0 hn
  obtain ⟨rows', i', T', hr', hmem', hs', hT', hc', hm', hf'⟩ := chooseScored_spec h1' (by rw [h22]; exact h2) h0' hn
  obtain ⟨r, r', e, e', hsub⟩ := ThresholdOrder.C135_more_partial A B ts us h00 h22 hp ht h1 h1' h2
  rw [hr] at e
  rw [hr'] at e'
  cases e
  cases e'
  exact ⟨T, T', hc, hc', hm' T (hsub T (List.mem_of_getElem? hT)), fun hin =>
    first_unique hs hs' hT hT' hm hf hm' hf' hsub ((hmem T').2 hin)⟩

/-- C150: by accuracy, the chosen classifier predicts at least as many held-out labels. -/
theorem C150_accuracy {A B : Arr3 K} {ts us : List Int} {y : List Nat} {predict : List Bool → List Nat} (hB : Extends A B)
    (ht : ∀ t ∈ ts, t ∈ us) (h1 : ts.length * A.n1 ≠ 1) (h1' : us.length * B.n1 ≠ 1) (h2 : A.n2 ≠ 1) (h0 : ts ≠ [] ∧ A.n1 ≠ 0)
    (hl : ∀ S, (predict S).length = y.length) (hy : y ≠ []) :
    ∃ T T', chooseSupport A ts y predict = .ok T ∧ chooseSupport B us y predict = .ok T' ∧
      correct y (predict T) ≤ correct y (predict T') := by
  rw [chooseSupport_eq A ts hl hy, chooseSupport_eq B us hl hy]
  obtain ⟨T, T', hc, hc', h, -⟩ := C150_partial (score := fun S => (.fin ((correct y (predict S) : ℚ) / y.length) : Ext ℚ))
    hB ht h1 h1' h2 h0 (fun S => by simp)
  refine ⟨T, T', hc, hc', ?_⟩
  by_contra hlt
  have := h.symm.trans ((acc_lt hy _ _).2 (not_le.1 hlt))
  cases this

/-- One bootstrap, `n` penalties, two features: the coefficients of the two features at the penalties. -/
def demo (n : Nat) (f g : Nat → ℚ) : Arr3 ℚ where
  n0 := 1
  n1 := n
  n2 := 2
  get _ l j := if j = 0 then f l else g l

/-- The third penalty adds a candidate with both features. -/
example : Extends (demo 2 (fun l => l) fun _ => 0) (demo 3 (fun l => l) fun l => if l = 2 then 1 else 0) :=
  ⟨rfl, rfl, fun l hl => ⟨l, Nat.lt_succ_of_lt hl, fun b _ j _ => by
    have : l < 2 := hl
    have : l ≠ 2 := by omega
    simp [demo, this]⟩⟩

/-- It is chosen if it is more accurate. -/
example : chooseSupport (demo 2 (fun l => l) fun _ => 0) [1] [0, 1, 1] (fun S => if S = [true, true] then [0, 1, 1] else [0, 0, 1]) =
      .ok [false, false] ∧
    chooseSupport (demo 3 (fun l => l) fun l => if l = 2 then 1 else 0) [1] [0, 1, 1]
      (fun S => if S = [true, true] then [0, 1, 1] else [0, 0, 1]) = .ok [true, true] := by decide +kernel

example : ∃ T T', chooseSupport (demo 2 (fun l => l) fun _ => 0) [1] [0, 1, 1] (fun _ => [0, 0, 1]) = .ok T ∧
    chooseSupport (demo 2 (fun l => l) fun _ => 0) [2, 1] [0, 1, 1] (fun _ => [0, 0, 1]) = .ok T' ∧
    correct [0, 1, 1] [0, 0, 1] ≤ correct [0, 1, 1] [0, 0, 1] :=
  C150_accuracy ⟨rfl, rfl, fun l hl => ⟨l, hl, fun _ _ _ _ => rfl⟩⟩ (by decide) (by decide) (by decide) (by decide) (by decide)
    (fun _ => rfl) (by decide)

/-- C150 is false if a further candidate has the score NaN, as for a Poisson model whose predictions overflow: it is chosen, and the
    best candidate lost. -/
theorem C150_negation :
    chooseScored (demo 2 (fun l => l) fun _ => 0) [1] (fun S => if S = [true, true] then .nan else (.fin 1 : Ext ℚ)) =
      .ok [false, false] ∧
    chooseScored (demo 3 (fun l => l) fun l => if l = 2 then 1 else 0) [1]
      (fun S => if S = [true, true] then .nan else (.fin 1 : Ext ℚ)) = .ok [true, true] := by decide +kernel

end Verif.Props.MoreCandidates
