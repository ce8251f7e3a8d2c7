import Verif.Lemmas.Classes
import Verif.Lemmas.FitResult
import Verif.Lemmas.Flatten
import Verif.Lemmas.Intersection
import Verif.Spec.Supports
namespace Verif.Supports
open Verif.Py Verif.Intersection Verif.Fit Verif.Spec.Fit Verif.Spec.Supports

variable {K G S M RP : Type}

theorem sweep_sweeps {env : Env K G S M RP} (hw : SelShaped env) {train : List Nat} :
    ∀ {rps : List RP} {s : S} {res : List (List K) × S}, sweep env s rps train = .ok res →
      Sweeps env train s rps res.1 := by
  intro rps
  induction rps with
  | nil =>
    intro s res h
    simp only [sweep, Except.ok.injEq] at h
    subst h
    exact .nil s
  | cons rp rps ih =>
    intro s res h
    unfold sweep at h
    split at h
    · cases h
    · rename_i s' hs
      have ha : assignRow env.nCoef (env.selCoef s') = .ok (env.selCoef s') := by
        unfold assignRow
        rw [if_pos (show _ = env.nCoef from hw _ _ _ _ hs)]
      rw [ha] at h
      simp only at h
      split at h
      · cases h
      · rename_i rows s'' hr
        injection h with h
        subst h
        exact .cons hs (ih hr)

theorem sweeps_rows {env : Env K G S M RP} (hw : SelShaped env) {train : List Nat} {s : S} {rps : List RP}
    {rows : List (List K)} (h : Sweeps env train s rps rows) :
    rows.length = rps.length ∧ ∀ r ∈ rows, r.length = env.nCoef := by
  induction h with
  | nil s => simp
  | cons hs _ ih =>
    refine ⟨by simp [ih.1], fun r hr => ?_⟩
    rcases List.mem_cons.mp hr with rfl | hr
    · exact hw _ _ _ _ hs
    · exact ih.2 r hr

/-- What a row of `selection_coefs` consists of. -/
def TaskRows (env : Env K G S M RP) (boots : List Split) (t : Nat) (row : List K) : Prop :=
  ∃ sp s0 rows, boots[t]? = some sp ∧ Sweeps env sp.train (env.reset s0) env.regParams rows ∧
    row = rows.flatten

theorem selLoop_rows {env : Env K G S M RP} (hw : SelShaped env) {size : Nat}
    (hf : env.fine size = false) {keys : List Nat} {boots : List Split} :
    ∀ {ts : List Nat} {cur : Option Nat} {s : S} {rows : List (List K)}, After cur ts →
      selLoop env size keys boots ts cur s = .ok rows → List.Forall₂ (TaskRows env boots) ts rows := by
  intro ts
  induction ts with
  | nil =>
    intro cur s rows _ h
    simp only [selLoop, Except.ok.injEq] at h
    subst h
    exact .nil
  | cons t ts ih =>
    intro cur s rows ha h
    obtain ⟨regs, sp, p, row, rest, h1, h3, h4, h5, h6, rfl⟩ := selLoop_cons h
    simp only [Env.selRegs, hf, Bool.false_eq_true, if_false, Except.ok.injEq] at h1
    have hb : env.selBoot size t = t := by simp [Env.selBoot, hf]
    rw [hb] at h3 h4 h6
    rw [if_pos ha.ne] at h4
    subst h1
    unfold assignSel at h5
    split at h5
    · cases h5
    · injection h5 with h5
      exact .cons ⟨sp, s, p.1, h3, sweep_sweeps hw h4, h5.symm⟩ (ih ha.tail h6)

/-- The parts of the selection module of a serial fit that completes. -/
theorem fit_selection [LinearOrder K] [Field K] {env : Env K G S M RP} {g : G} {s : S} {st : FitState K}
    (h : fit env 1 0 g s = .ret st) : ∃ p rows A,
    drawList env false env.nBootsSel g = .ok p ∧ env.fine 1 = false ∧
    selLoop env 1 (List.range env.nBootsSel) p.1 (env.selTasks 1) none s = .ok rows ∧
    toArr3 env false (selArr env 1 rows) = .ok A ∧ env.intersect A = .ok st.supports := by
  unfold fit at h
  rw [drawBoots_serial] at h
  obtain ⟨p, hp, h⟩ := Prog.lift_bind_ret h
  unfold selection at h
  simp only [Nat.lt_irrefl, gt_iff_lt, if_false, splitPart_one, bind_assoc] at h
  obtain ⟨rows, hr, h⟩ := Prog.lift_bind_ret h
  obtain ⟨B, hB, h⟩ := Prog.lift_bind_ret h
  obtain ⟨k, hk, h⟩ := Prog.lift_bind_ret h
  rw [drawBoots_serial] at h
  obtain ⟨q, hq, h⟩ := Prog.lift_bind_ret h
  obtain ⟨A, hA, hB⟩ := except_bind_ok hB
  have hfine : env.fine 1 = false := by
    cases hf : env.fine 1 with
    | false => rfl
    | true => simp [toArr3, selArr, hf] at hA
  unfold estimation at h
  simp only [Nat.lt_irrefl, gt_iff_lt, if_false, splitPart_one] at h
  obtain ⟨res, hres, h⟩ := Prog.lift_bind_ret h
  obtain ⟨q', h2, h⟩ := Prog.lift_bind_ret h
  obtain ⟨ci, h3, h⟩ := Prog.lift_bind_ret h
  have hst : st.supports = B := by injection h with h; rw [← h]
  subst hst
  exact ⟨p, rows, A, hp, hfine, hr, hA, hB⟩

theorem after_range (n : Nat) : After none (List.range n) :=
  ⟨List.pairwise_lt_range, fun _ h => by cases h⟩

/-- The array handed to the intersection holds the coefficients of the sweeps. -/
theorem arr_of_fit [LinearOrder K] [Field K] {env : Env K G S M RP} (hw : SelShaped env) {g : G} {s : S}
    {st : FitState K} (h : fit env 1 0 g s = .ret st) : ∃ p A, ∃ coef : Nat → Nat → List K,
    drawList env false env.nBootsSel g = .ok p ∧ env.intersect A = .ok st.supports ∧
    A.n0 = env.nBootsSel ∧ A.n1 = env.nReg ∧ A.n2 = env.nCoef ∧
    (∀ b sp, p.1[b]? = some sp → ∃ s0,
      Sweeps env sp.train (env.reset s0) env.regParams ((List.range env.nReg).map (coef b))) ∧
    ∀ b < env.nBootsSel, ∀ l < env.nReg, ∀ j < env.nCoef, (coef b l)[j]? = some (A.get b l j) := by
  obtain ⟨p, rows, A, hp, hf, hr, hA, hB⟩ := fit_selection h
  have hlen := Verif.Classes.drawList_length hp
  have htask : env.selTasks 1 = List.range env.nBootsSel := by simp [Env.selTasks, hf]
  rw [htask] at hr
  have hF := selLoop_rows hw hf (after_range _) hr
  have hn : rows.length = env.nBootsSel := by rw [← hF.length_eq, List.length_range]
  have hat : ∀ b, b < env.nBootsSel → ∃ sp s0 rs row, p.1[b]? = some sp ∧ rows[b]? = some row ∧
      Sweeps env sp.train (env.reset s0) env.regParams rs ∧ row = rs.flatten := by
    intro b hb
    have ht := (List.forall₂_iff_get.1 hF).2 b (by simpa using hb) (by omega)
    simp only [List.get_eq_getElem, List.getElem_range] at ht
    obtain ⟨sp, s0, rs, h1, h2, h3⟩ := ht
    exact ⟨sp, s0, rs, _, h1, List.getElem?_eq_getElem (by omega), h2, h3⟩
  have hrowlen : ∀ r ∈ rows, r.length = env.nReg * env.nCoef := by
    intro r hr
    obtain ⟨b, hb, rfl⟩ := List.getElem_of_mem hr
    obtain ⟨sp, s0, rs, row, -, h2, h3, h4⟩ := hat b (by omega)
    rw [List.getElem?_eq_getElem hb] at h2
    injection h2 with h2
    obtain ⟨e1, e2⟩ := sweeps_rows hw h3
    rw [h2, h4, flatten_length_uniform e2, e1]
    rfl
  simp only [toArr3, selArr, hf, Bool.false_eq_true, if_false, Except.ok.injEq] at hA
  refine ⟨p, A, fun b l => ((rows.getD b []).drop (l * env.nCoef)).take env.nCoef, hp, hB, ?_, ?_, ?_,
    ?_, ?_⟩
  · rw [← hA]; exact hn
  · rw [← hA]
  · rw [← hA]
  · intro b sp hsp
    have hb : b < env.nBootsSel := by
      rw [← hlen]; exact (List.getElem?_eq_some_iff.1 hsp).1
    obtain ⟨sp', s0, rs, row, h1, h2, h3, h4⟩ := hat b hb
    rw [hsp] at h1
    injection h1 with h1
    subst h1
    refine ⟨s0, ?_⟩
    obtain ⟨e1, e2⟩ := sweeps_rows hw h3
    have : (List.range env.nReg).map
        (fun l => ((rows.getD b []).drop (l * env.nCoef)).take env.nCoef) = rs := by
      refine List.ext_getElem? fun l => ?_
      by_cases hl : l < env.nReg
      · rw [List.getElem?_map, List.getElem?_range hl, Option.map_some]
        have hlr : l < rs.length := by rw [e1]; exact hl
        rw [List.getElem?_eq_getElem hlr]
        congr 1
        refine List.ext_getElem? fun j => ?_
        rw [List.getD_eq_getElem?_getD, h2, Option.getD_some, h4]
        by_cases hj : j < env.nCoef
        · rw [List.getElem?_take_of_lt hj, List.getElem?_drop, flatten_getElem?_uniform e2 l j hj,
            List.getElem?_eq_getElem hlr, Option.bind_some]
        · rw [List.getElem?_eq_none (by rw [List.length_take]; omega),
            List.getElem?_eq_none (by rw [e2 _ (List.getElem_mem hlr)]; omega)]
      · rw [List.getElem?_eq_none (by simpa using hl),
          List.getElem?_eq_none (by rw [e1]; exact Nat.le_of_not_lt hl)]
    rw [this]
    exact h3
  · intro b hb l hl j hj
    rw [← hA]
    have hb' : b < rows.length := by omega
    have hrb := hrowlen _ (List.getElem_mem hb')
    have hlj : l * env.nCoef + j < env.nReg * env.nCoef := by
      calc l * env.nCoef + j < l * env.nCoef + env.nCoef := by omega
        _ = (l + 1) * env.nCoef := by ring
        _ ≤ env.nReg * env.nCoef := Nat.mul_le_mul_right _ hl
    have hidx : (b * env.nReg + l) * env.nCoef + j = b * (env.nReg * env.nCoef) + (l * env.nCoef + j) := by
      ring
    simp only
    rw [List.getElem?_take_of_lt hj, List.getElem?_drop, hidx, List.getD_eq_getElem?_getD,
      List.getD_eq_getElem?_getD, List.getElem?_eq_getElem hb', Option.getD_some, List.getElem?_map,
      flatten_getElem?_uniform hrowlen b _ hlj, List.getElem?_eq_getElem hb', Option.bind_some,
      List.getElem?_eq_getElem (by omega), Option.map_some, Option.getD_some]
    rfl

theorem votes_eq [Zero K] [DecidableEq K] {A : Arr3 K} {coef : Nat → Nat → List K} {n l j : Nat}
    (h0 : A.n0 = n) (h : ∀ b < n, (coef b l)[j]? = some (A.get b l j)) :
    (Verif.Intersection.Spec.selectedIn A l j).card = votes coef n l j := by
  unfold Verif.Intersection.Spec.selectedIn votes
  rw [h0]
  congr 1
  refine Finset.filter_congr fun b hb => ?_
  rw [h b (Finset.mem_range.mp hb)]
  simp

end Verif.Supports
