import Verif.Model.Classes
import Verif.Spec.Classes
import Verif.Spec.Fit
import Verif.Lemmas.Labels
import Verif.Lemmas.Fit
import Verif.Lemmas.WarmStart
namespace Verif.Classes
open Verif.Py Verif.Intersection Verif.Fit Verif.Spec.Fit Verif.Labels Verif.Classes.Spec

variable {L K G S M RP : Type} [LinearOrder L]

omit [LinearOrder L] in
theorem mem_rowsOf {y : List L} {rows : List Nat} {l : L} :
    l ∈ rowsOf y rows ↔ ∃ i ∈ rows, y[i]? = some l := by
  simp [rowsOf]

theorem uniq_card (y : List L) : (uniq y).length = y.toFinset.card := by
  rw [← List.toFinset_card_of_nodup (uniq_nodup y)]
  congr 1
  ext l
  simp [mem_uniq]

omit [LinearOrder L] in
theorem rowsOf_subset {y : List L} {rows : List Nat} : ∀ l ∈ rowsOf y rows, l ∈ y := by
  intro l hl
  obtain ⟨i, -, h⟩ := mem_rowsOf.mp hl
  exact List.mem_of_getElem? h

/-- The number of rows of `coef_` tells whether a class is missing. -/
theorem all_of_rows {multinomial : Bool} {y : List L} {rows : List Nat} (h2 : 2 ≤ (uniq y).length)
    (h : maskedRows multinomial (uniq (rowsOf y rows)).length = .ok (outputDim multinomial y)) :
    AllClasses y rows := by
  have hsub : (rowsOf y rows).toFinset ⊆ y.toFinset := by
    intro l hl
    rw [List.mem_toFinset] at hl ⊢
    exact rowsOf_subset l hl
  have hle := Finset.card_le_card hsub
  have heq : (uniq (rowsOf y rows)).length = (uniq y).length := by
    rw [← uniq_card, ← uniq_card] at hle
    unfold maskedRows at h
    unfold outputDim at h
    split at h
    · cases h
    · split at h
      · rename_i hk
        injection h with h
        rw [hk.2] at h
        simp only [Bool.false_eq_true, if_false] at h
        split at h <;> omega
      · injection h with h
        split at h
        · exact h
        · omega
  rw [uniq_card, uniq_card] at heq
  have := Finset.eq_of_subset_of_card_le hsub heq.ge
  intro l hl
  rw [← mem_rowsOf, ← List.mem_toFinset, this, List.mem_toFinset]
  exact hl

omit [LinearOrder L] in
theorem assignRow_ok {n : Nat} {xs row : List K} (h2 : xs.length ≠ 1) (h : assignRow n xs = .ok row) :
    xs.length = n := by
  unfold assignRow at h
  split at h
  · assumption
  · split at h
    · simp at h2
    · cases h

omit [LinearOrder L] in
theorem assignMasked_ok [Zero K] {n : Nat} {mask : List Bool} {xs row : List K} (h2 : xs.length ≠ 1)
    (h : assignMasked n mask xs = .ok row) : xs.length = mask.count true := by
  unfold assignMasked at h
  split at h
  · cases h
  · split at h
    · assumption
    · split at h
      · simp at h2
      · cases h

theorem rows_pos {multinomial : Bool} {k r : Nat} (h : maskedRows multinomial k = .ok r) : 1 ≤ r :=
  (maskedRows_eq h).2.1

/-- A sweep that succeeds was over a bootstrap with all classes. -/
theorem all_of_sweep {multinomial : Bool} {y : List L} {env : Env K G S M RP}
    (hu : Uses multinomial y env) (h2 : 2 ≤ (uniq y).length) (hp : 2 ≤ env.nFeat) {s : S} {rp : RP}
    {rps : List RP} {train : List Nat} {res : List (List K) × S}
    (h : sweep env s (rp :: rps) train = .ok res) : AllClasses y train := by
  unfold sweep at h
  split at h
  · cases h
  · rename_i s' hs
    split at h
    · cases h
    · rename_i row hrow
      obtain ⟨r, hr, hlen⟩ := hu.sel _ _ _ _ hs
      have hr1 := rows_pos hr
      have : 2 * 1 ≤ env.nFeat * r := Nat.mul_le_mul hp hr1
      have hl := assignRow_ok (by omega) hrow
      rw [hlen, Env.nCoef] at hl
      have hrd : r = env.outDim := Nat.eq_of_mul_eq_mul_left (by omega) hl
      rw [hrd, hu.dim] at hr
      exact all_of_rows h2 hr

theorem all_of_selLoop {multinomial : Bool} {y : List L} {env : Env K G S M RP}
    (hu : Uses multinomial y env) (h2 : 2 ≤ (uniq y).length) (hp : 2 ≤ env.nFeat)
    (hr : env.regParams ≠ []) {size : Nat} (hf : env.fine size = false) {keys : List Nat}
    {boots : List Split} : ∀ {ts : List Nat} {cur : Option Nat} {s : S} {rows : List (List K)},
    selLoop env size keys boots ts cur s = .ok rows → ∀ t ∈ ts, ∀ sp, boots[t]? = some sp →
      AllClasses y sp.train := by
  intro ts
  induction ts with
  | nil => intro _ _ _ _ t ht; cases ht
  | cons t ts ih =>
    intro cur s rows h u hut sp hsp
    obtain ⟨regs, sp', p, row, rest, h1, h3, h4, -, h6, -⟩ := selLoop_cons h
    rcases List.mem_cons.mp hut with rfl | hut
    · simp only [Env.selRegs, hf, Bool.false_eq_true, if_false, Except.ok.injEq] at h1
      simp only [Env.selBoot, hf, Bool.false_eq_true, if_false] at h3
      rw [hsp] at h3
      injection h3 with h3
      subst h3
      subst h1
      obtain ⟨rp, rps, hrp⟩ := List.exists_cons_of_ne_nil hr
      rw [hrp] at h4
      exact all_of_sweep hu h2 hp h4
    · exact ih h6 u hut sp hsp

omit [LinearOrder L] in
theorem drawList_length {env : Env K G S M RP} {est : Bool} : ∀ {k : Nat} {g : G} {p : List Split × G},
    drawList env est k g = .ok p → p.1.length = k := by
  intro k
  induction k with
  | zero =>
    intro g p h
    simp only [drawList, Except.ok.injEq] at h
    subst h
    rfl
  | succ k ih =>
    intro g p h
    simp only [drawList] at h
    split at h
    · cases h
    · split at h
      · cases h
      · rename_i q hq
        injection h with h
        subst h
        simp [ih hq]

omit [LinearOrder L] in
/-- The parts of a serial fit that completes. -/
theorem fit_parts [LinearOrder K] [Field K] {env : Env K G S M RP} {g : G} {s : S} {st : FitState K}
    (h : fit env 1 0 g s = .ret st) : ∃ p q rows res k,
    drawList env false env.nBootsSel g = .ok p ∧
    selLoop env 1 (List.range env.nBootsSel) p.1 (env.selTasks 1) none s = .ok rows ∧
    env.fine 1 = false ∧ shape0 st.supports = .ok k ∧
    drawList env true env.nBootsEst p.2 = .ok q ∧
    mapE (estTask env st.supports k (List.range env.nBootsEst) q.1) (List.range (env.nBootsEst * k)) =
      .ok res := by
  unfold fit at h
  rw [drawBoots_serial] at h
  obtain ⟨p, hp, h⟩ := Prog.lift_bind_ret h
  unfold selection at h
  simp only [Nat.lt_irrefl, gt_iff_lt, if_false, splitPart_one, bind_assoc] at h
  obtain ⟨rows, hr, h⟩ := Prog.lift_bind_ret h
  obtain ⟨B, hB, h⟩ := Prog.lift_bind_ret h
  obtain ⟨k, hk, h⟩ := Prog.lift_bind_ret h
  rw [drawBoots_serial] at h
  obtain ⟨q, hq, h⟩ := Prog.lift_bind_ret h
  obtain ⟨A, hA, hB⟩ := except_bind_ok hB
  have hfine : env.fine 1 = false := by
    cases hf : env.fine 1 with
    | false => rfl
    | true => simp [toArr3, selArr, hf] at hA
  unfold estimation at h
  simp only [Nat.lt_irrefl, gt_iff_lt, if_false, splitPart_one] at h
  obtain ⟨res, hres, h⟩ := Prog.lift_bind_ret h
  obtain ⟨q', h2, h⟩ := Prog.lift_bind_ret h
  obtain ⟨ci, h3, h⟩ := Prog.lift_bind_ret h
  have hst : st.supports = B := by injection h with h; rw [← h]
  subst hst
  exact ⟨p, q, rows, res, k, hp, hr, hfine, hk, hq, hres⟩

omit [LinearOrder L] in
theorem supportAt_mask {B : BArr} {i : Nat} {mask : List Bool} (h : maskAt B i = some mask) :
    (∃ b, supportAt B i = .ok (.scalar b) ∧ mask = [b]) ∨ supportAt B i = .ok (.mask mask) := by
  cases B with
  | d0 b => cases h
  | d1 xs =>
    simp only [maskAt, Option.map_eq_some_iff] at h
    obtain ⟨b, hb, rfl⟩ := h
    exact .inl ⟨b, by simp [supportAt, hb], rfl⟩
  | d2 rows => exact .inr (by simp only [maskAt] at h; simp [supportAt, h])

omit [LinearOrder L] in
theorem maskAt_lt {B : BArr} {i k : Nat} {mask : List Bool} (h : maskAt B i = some mask)
    (hk : shape0 B = .ok k) : i < k := by
  cases B with
  | d0 b => cases h
  | d1 xs =>
    simp only [maskAt, Option.map_eq_some_iff] at h
    obtain ⟨b, hb, rfl⟩ := h
    simp only [shape0, Except.ok.injEq] at hk
    rw [← hk]; exact (List.getElem?_eq_some_iff.1 hb).1
  | d2 rows =>
    simp only [maskAt] at h
    simp only [shape0, Except.ok.injEq] at hk
    rw [← hk]; exact (List.getElem?_eq_some_iff.1 h).1

omit [LinearOrder L] in
theorem count_tile (n : Nat) (m : List Bool) :
    (List.replicate n m).flatten.count true = n * m.count true := by
  induction n with
  | zero => simp
  | succ n ih => rw [List.replicate_succ, List.flatten_cons, List.count_append, ih]; ring

/-- An estimation task that succeeds was over a bootstrap with all classes. -/
theorem all_of_estTask [Zero K] {multinomial : Bool} {y : List L} {env : Env K G S M RP}
    (hu : Uses multinomial y env) (h2 : 2 ≤ (uniq y).length) {B : BArr} {k i : Nat} {keys : List Nat}
    {boots : List Split} {t : Nat} {res : List K × K} (h : estTask env B k keys boots t = .ok res)
    (hi : t % k = i) {mask : List Bool} (hm : maskAt B i = some mask)
    (hb : if env.shared then 2 ≤ mask.count true else true ∈ mask ∧ 2 ≤ env.nFeat) {sp : Split}
    (hsp : boots[t / k]? = some sp) : AllClasses y sp.train := by
  have htrue : true ∈ mask := by
    split at hb
    · exact List.count_pos_iff.mp (by omega)
    · exact hb.1
  unfold estTask at h
  obtain ⟨sup, e1, h⟩ := except_bind_ok h
  obtain ⟨sp', e2, h⟩ := except_bind_ok h
  rw [hi] at e1
  have hspe : sp' = sp := by
    unfold lookup at e2
    rw [hsp] at e2
    split at e2
    · simp only [Except.ok.injEq] at e2; exact e2.symm
    · cases e2
  subst hspe
  rcases supportAt_mask hm with ⟨b, hs, rfl⟩ | hs
  · rw [hs] at e1
    injection e1 with e1
    subst e1
    have : b = true := (List.mem_singleton.mp htrue).symm
    subst this
    cases h
  · rw [hs] at e1
    injection e1 with e1
    subst e1
    simp only at h
    rw [if_pos (List.any_eq_true.mpr ⟨true, htrue, rfl⟩)] at h
    obtain ⟨m, e3, h⟩ := except_bind_ok h
    obtain ⟨row, e4, h⟩ := except_bind_ok h
    obtain ⟨r, hr, hlen⟩ := hu.est _ _ _ e3
    have hr1 := rows_pos hr
    have hrd : r = env.outDim := by
      cases hsh : env.shared with
      | true =>
        rw [hsh] at e4 hb hlen
        simp only [if_true] at e4 hb hlen
        have : 2 * 1 ≤ mask.count true * r := Nat.mul_le_mul hb hr1
        have hl := assignMasked_ok (by omega) e4
        rw [hlen, count_tile, Nat.mul_comm] at hl
        exact Nat.eq_of_mul_eq_mul_right (by omega) hl
      | false =>
        rw [hsh] at e4 hb hlen
        simp only [Bool.false_eq_true, if_false] at e4 hb hlen
        have : 2 * 1 ≤ env.nFeat * r := Nat.mul_le_mul hb.2 hr1
        have hl := assignRow_ok (by omega) e4
        rw [hlen, Env.nCoef] at hl
        exact Nat.eq_of_mul_eq_mul_left (by omega) hl
    rw [hrd, hu.dim] at hr
    exact all_of_rows h2 hr

end Verif.Classes
