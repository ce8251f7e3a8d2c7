import Verif.Lemmas.Classes
import Verif.Lemmas.FitResult
/-!
Bootstraps of `UoI_L1Logistic` in which a class does not occur.
-/
namespace Verif.Classes
open Verif.Py Verif.Intersection Verif.Fit Verif.Spec.Fit Verif.Labels Verif.Classes.Spec

variable {L K G S M RP : Type} [LinearOrder L]

/-- C110, selection: with two or more features a serial fit that completes has drawn, in its selection
    module, training sets with all classes only. -/
theorem C110_selection [LinearOrder K] [Field K] {multinomial : Bool} {y : List L}
    {env : Env K G S M RP} (hu : Uses multinomial y env) (h2 : 2 ≤ (uniq y).length) (hp : 2 ≤ env.nFeat)
    (hr : env.regParams ≠ []) {g : G} {s : S} {st : FitState K} (h : fit env 1 0 g s = .ret st) :
    ∃ splits g1, Draws env false g splits g1 ∧ splits.length = env.nBootsSel ∧
      ∀ sp ∈ splits, AllClasses y sp.train := by
  obtain ⟨p, q, rows, res, k, hd, hs, hf, -, -, -⟩ := fit_parts h
  refine ⟨p.1, p.2, (draws_of_drawList hd).1, drawList_length hd, fun sp hsp => ?_⟩
  obtain ⟨t, ht, rfl⟩ := List.getElem_of_mem hsp
  have hlen := drawList_length hd
  refine all_of_selLoop hu h2 hp hr hf hs t ?_ _ (List.getElem?_eq_getElem ht)
  simp only [Env.selTasks, hf, Bool.false_eq_true, if_false, List.mem_range]
  omega

/-- C110, estimation: the same for the estimation module, if there is a candidate with two features (or,
    without `shared_support`, a candidate that is not empty).  Missing: candidates with one feature, see
    `C110_negation`. -/
theorem C110_estimation_partial [LinearOrder K] [Field K] {multinomial : Bool} {y : List L}
    {env : Env K G S M RP} (hu : Uses multinomial y env) (h2 : 2 ≤ (uniq y).length) {g : G} {s : S}
    {st : FitState K} (h : fit env 1 0 g s = .ret st) {i : Nat} {mask : List Bool}
    (hm : maskAt st.supports i = some mask)
    (hb : if env.shared then 2 ≤ mask.count true else true ∈ mask ∧ 2 ≤ env.nFeat) :
    ∃ first g1 splits g2, Draws env false g first g1 ∧ first.length = env.nBootsSel ∧
      Draws env true g1 splits g2 ∧ splits.length = env.nBootsEst ∧
      ∀ sp ∈ splits, AllClasses y sp.train := by
  obtain ⟨p, q, rows, res, k, hd, hs, hf, hk, hq, hres⟩ := fit_parts h
  refine ⟨p.1, p.2, q.1, q.2, (draws_of_drawList hd).1, drawList_length hd, (draws_of_drawList hq).1,
    drawList_length hq, fun sp hsp => ?_⟩
  obtain ⟨b, hlt, rfl⟩ := List.getElem_of_mem hsp
  have hlen := drawList_length hq
  have hik := maskAt_lt hm hk
  have hF := mapE_ok_iff.1 hres
  have hlt' : b * k + i < (List.range (env.nBootsEst * k)).length := by
    rw [List.length_range]
    calc b * k + i < b * k + k := by omega
      _ = (b + 1) * k := by ring
      _ ≤ env.nBootsEst * k := Nat.mul_le_mul_right k (by omega)
  have ht := (List.forall₂_iff_get.1 hF).2 (b * k + i) hlt' (by rw [← hF.length_eq]; exact hlt')
  simp only [List.get_eq_getElem, List.getElem_range] at ht
  refine all_of_estTask hu h2 ht (i := i) ?_ hm hb ?_
  · rw [Nat.mul_comm, Nat.mul_add_mod, Nat.mod_eq_of_lt hik]
  · rw [Nat.mul_comm, Nat.mul_add_div (by omega), Nat.div_eq_of_lt hik, Nat.add_zero]
    exact List.getElem?_eq_getElem hlt

/-- What happens at the first training set without some class: the sweep stops with `ValueError`, raised by
    the solver or by storing its coefficients. -/
theorem C110_raises {multinomial : Bool} {y : List L} {env : Env K G S M RP} (hu : Uses multinomial y env)
    (h2 : 2 ≤ (uniq y).length) (hp : 2 ≤ env.nFeat) {s : S} {rp : RP} {rps : List RP} {train : List Nat}
    (hsolve : ∀ e, env.fitSel s rp train = .error e → e = .valueError) (hmiss : ¬ AllClasses y train) :
    sweep env s (rp :: rps) train = .error .valueError := by
  cases hs : env.fitSel s rp train with
  | error e =>
    rw [sweep, hs]
    simp only
    rw [hsolve e hs]
  | ok s' =>
    cases ha : assignRow env.nCoef (env.selCoef s') with
    | error e =>
      have he : e = .valueError := by
        unfold assignRow at ha
        split at ha
        · cases ha
        · split at ha
          · cases ha
          · injection ha with ha; exact ha.symm
      rw [sweep, hs]
      simp only [ha, he]
    | ok row =>
      obtain ⟨r, hr, hlen⟩ := hu.sel _ _ _ _ hs
      have : 2 * 1 ≤ env.nFeat * r := Nat.mul_le_mul hp (rows_pos hr)
      have hl := assignRow_ok (by omega) ha
      rw [hlen, Env.nCoef] at hl
      have hrd : r = env.outDim := Nat.eq_of_mul_eq_mul_left (by omega) hl
      rw [hrd, hu.dim] at hr
      exact absurd (all_of_rows h2 hr) hmiss

/-- Conversely a training set with all classes is always accepted: the coefficients that the solver leaves
    fit into the row they are stored in, so that a sweep fails only where the solver does. -/
theorem C110_accepts {multinomial : Bool} {y : List L} {env : Env K G S M RP} (hu : Uses multinomial y env)
    (h2 : 2 ≤ (uniq y).length) {rps : List RP} {train : List Nat} (hall : AllClasses y train) {e : PyErr} :
    ∀ {s : S}, sweep env s rps train = .error e → ∃ s' rp, rp ∈ rps ∧ env.fitSel s' rp train = .error e := by
  have hlen : (uniq (rowsOf y train)).length = (uniq y).length := by
    congr 1
    refine uniq_eq (uniq_strict y) fun l => ?_
    rw [mem_uniq]
    exact ⟨fun h => mem_rowsOf.2 (hall l h), rowsOf_subset l⟩
  have hrows : ∀ r, maskedRows multinomial (uniq (rowsOf y train)).length = .ok r → r = env.outDim := by
    intro r hr
    rw [hlen] at hr
    rw [hu.dim]
    unfold maskedRows at hr
    unfold outputDim
    cases multinomial <;> simp only [and_true, Bool.true_eq_false, and_false, if_false, if_true,
      Bool.false_eq_true] at hr ⊢ <;> split_ifs at hr ⊢ <;> cases hr <;> omega
  induction rps with
  | nil => intro s h; cases h
  | cons rp rps ih =>
    intro s h
    cases hs : env.fitSel s rp train with
    | error e' =>
      rw [sweep, hs] at h
      cases h
      exact ⟨s, rp, by simp, hs⟩
    | ok s' =>
      obtain ⟨r, hr, hl⟩ := hu.sel _ _ _ _ hs
      have ha : assignRow env.nCoef (env.selCoef s') = .ok (env.selCoef s') := by
        unfold assignRow
        rw [if_pos (by rw [hl, hrows r hr, Env.nCoef])]
      rw [sweep, hs] at h
      simp only [ha] at h
      cases hw : sweep env s' rps train with
      | error e' =>
        rw [hw] at h
        cases h
        obtain ⟨s'', rp', hm, hf⟩ := ih hw
        exact ⟨s'', rp', by simp [hm], hf⟩
      | ok r => rw [hw] at h; cases h

/-- Three classes, two features.  The first parameter selects the features `keep`, the second nothing;
    the selection bootstraps are trained on the rows `selTr`, the estimation bootstraps on `estTr`. -/
def demo (keep : List Bool) (selTr estTr : List Nat) : Env ℚ Nat (List ℚ) (List ℚ) Nat where
  nBootsSel := 2
  nBootsEst := 2
  nFeat := 2
  outDim := 3
  shared := true
  glm := true
  thresholds := [2]
  regParams := [0, 1]
  draw est g := .ok (⟨if est then estTr else selTr, [3]⟩, g + 1)
  fitSel _ rp tr := (maskedRows false (uniq (rowsOf [(4 : ℤ), 5, 6, 6] tr)).length).map fun r =>
    (List.replicate r (if rp = 0 then (List.range 2).map fun j => if keep.getD j false then 1 else 0
      else [0, 0])).flatten
  selCoef s := s
  reset _ := []
  fitEst mask tr := (maskedRows false (uniq (rowsOf [(4 : ℤ), 5, 6, 6] tr)).length).map fun r =>
    List.replicate (mask.count true * r) 7
  estCoef m := m
  score _ _ _ := .ok 1
  fitEmpty _ := .ok []
  scoreEmpty _ _ := .ok 0
  fitIntercept _ := .ok ⟨[3], .f64, [.f 0, .f 0, .f 0]⟩
  post a b := .ok (a, b)
  nan := 0

theorem demo_uses (keep : List Bool) (a b : List Nat) : Uses false [(4 : ℤ), 5, 6, 6] (demo keep a b) where
  dim := by show (3 : Nat) = _; decide +kernel
  sel := by
    intro s rp tr s' h
    simp only [demo] at h
    cases hr : maskedRows false (uniq (rowsOf [(4 : ℤ), 5, 6, 6] tr)).length with
    | error e => rw [hr] at h; cases h
    | ok r =>
      rw [hr] at h
      simp only [Except.map, Except.ok.injEq] at h
      subst h
      refine ⟨r, rfl, ?_⟩
      by_cases h0 : rp = 0 <;> simp [demo, h0, Nat.mul_comm]
  est := by
    intro mask tr m h
    simp only [demo] at h
    cases hr : maskedRows false (uniq (rowsOf [(4 : ℤ), 5, 6, 6] tr)).length with
    | error e => rw [hr] at h; cases h
    | ok r =>
      rw [hr] at h
      simp only [Except.map, Except.ok.injEq] at h
      subst h
      exact ⟨r, rfl, by simp [demo]⟩

/-- `C110_accepts` on a training set with the three classes, for which the sweep indeed succeeds. -/
example : AllClasses [(4 : ℤ), 5, 6, 6] [0, 1, 2] ∧ 2 ≤ (uniq [(4 : ℤ), 5, 6, 6]).length ∧
    Uses false [(4 : ℤ), 5, 6, 6] (demo [true, true] [0, 1, 2] [0, 1, 3]) ∧
    (sweep (demo [true, true] [0, 1, 2] [0, 1, 3]) [] [0, 1] [0, 1, 2]).isOk = true := by
  refine ⟨?_, by decide +kernel, demo_uses _ _ _, by decide +kernel⟩
  unfold AllClasses; decide

/-- All training sets have all classes, and the fit completes with both features. -/
example : (∃ splits g1, Draws (demo [true, true] [0, 1, 2] [0, 1, 3]) false 0 splits g1 ∧
      splits.length = 2 ∧ ∀ sp ∈ splits, AllClasses [(4 : ℤ), 5, 6, 6] sp.train) ∧
    ∃ first g1 splits g2, Draws (demo [true, true] [0, 1, 2] [0, 1, 3]) false 0 first g1 ∧
      first.length = 2 ∧ Draws (demo [true, true] [0, 1, 2] [0, 1, 3]) true g1 splits g2 ∧
      splits.length = 2 ∧ ∀ sp ∈ splits, AllClasses [(4 : ℤ), 5, 6, 6] sp.train := by
  have h : ((fit (demo [true, true] [0, 1, 2] [0, 1, 3]) 1 0 0 []).outcome.map fun r =>
      r.map (·.supports)) = some (.ok (.d2 [[false, false], [true, true]])) := by decide +kernel
  cases ho : (fit (demo [true, true] [0, 1, 2] [0, 1, 3]) 1 0 0 []).outcome with
  | none => rw [ho] at h; cases h
  | some r =>
    rw [ho] at h
    cases r with
    | error e => simp [Except.map] at h
    | ok st =>
      have hst : st.supports = .d2 [[false, false], [true, true]] := by simpa [Except.map] using h
      have hret := ret_of_outcome ho
      exact ⟨C110_selection (demo_uses _ _ _) (by decide +kernel) (by decide) (by decide) hret,
        C110_estimation_partial (demo_uses _ _ _) (by decide +kernel) hret (i := 1)
          (mask := [true, true]) (by rw [hst]; rfl) (by decide)⟩

/-- A selection bootstrap without the class 6. -/
example : sweep (demo [true, true] [0, 1] [0, 1]) [] [0, 1] [0, 1] = .error .valueError :=
  C110_raises (demo_uses [true, true] [0, 1] [0, 1]) (by decide +kernel) (by decide)
    (fun e h => by
      have : (demo [true, true] [0, 1] [0, 1]).fitSel [] 0 [0, 1] = .ok [1, 1] := by decide +kernel
      rw [this] at h; cases h)
    (fun h => by
      obtain ⟨i, hi, h6⟩ := h 6 (by decide)
      simp only [List.mem_cons, List.not_mem_nil, or_false] at hi
      rcases hi with rfl | rfl <;> simp at h6)

/-- C110 is false: the estimation bootstraps lack the class 6, the candidate has one feature, and the fit
    completes with the single coefficient of the classes 4 and 5 copied to all three classes. -/
theorem C110_negation : ∃ (y : List ℤ) (env : Env ℚ Nat (List ℚ) (List ℚ) Nat) (st : FitState ℚ)
    (first splits : List Split) (g1 g2 : Nat), Uses false y env ∧ (uniq y).length = 3 ∧
    fit env 1 0 0 [] = .ret st ∧ Draws env false 0 first g1 ∧ first.length = env.nBootsSel ∧
    Draws env true g1 splits g2 ∧ splits.length = env.nBootsEst ∧
    (∀ sp ∈ splits, ¬ AllClasses y sp.train) ∧
    st.coef = ⟨[3, 2], .f64, [.f 7, .f 0, .f 7, .f 0, .f 7, .f 0]⟩ := by
  have h : ((fit (demo [true, false] [0, 1, 2] [0, 1]) 1 0 0 []).outcome.map fun r =>
      r.map (·.coef)) = some (.ok ⟨[3, 2], .f64, [.f 7, .f 0, .f 7, .f 0, .f 7, .f 0]⟩) := by
    decide +kernel
  cases ho : (fit (demo [true, false] [0, 1, 2] [0, 1]) 1 0 0 []).outcome with
  | none => rw [ho] at h; cases h
  | some r =>
    rw [ho] at h
    cases r with
    | error e => simp [Except.map] at h
    | ok st =>
      refine ⟨[4, 5, 6, 6], _, st, [⟨[0, 1, 2], [3]⟩, ⟨[0, 1, 2], [3]⟩],
        [⟨[0, 1], [3]⟩, ⟨[0, 1], [3]⟩], 2, 4, demo_uses [true, false] [0, 1, 2] [0, 1],
        by decide +kernel, ret_of_outcome ho, .cons rfl (.cons rfl (.nil _)), rfl,
        .cons rfl (.cons rfl (.nil _)), rfl, ?_, by simpa [Except.map] using h⟩
      intro sp hsp hall
      have hsp : sp = ⟨[0, 1], [3]⟩ := by simpa using hsp
      subst hsp
      obtain ⟨i, hi, h6⟩ := hall 6 (by decide)
      simp only [List.mem_cons, List.not_mem_nil, or_false] at hi
      rcases hi with rfl | rfl <;> simp at h6

end Verif.Classes
