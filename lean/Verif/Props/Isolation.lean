import Mathlib.Algebra.BigOperators.Fin
import Mathlib.Tactic.FieldSimp
import Verif.Lemmas.Data
import Verif.Props.FitResult
import Verif.Props.Intersection
/-!
C16, C17, C73: which data influence which part of a fit, and single-feature data.
-/
namespace Verif.Fit
open Verif.Py Verif.MpiUtils Verif.Intersection Verif.Spec.Fit

variable {K G S M RP Row : Type} {n : Nat}

/-! ### C16 -/

/-- **C16**, for solvers on whose reachable states the reset restores a fixed behaviour
    (`Restarts`): the coefficients of the tasks of bootstrap `b` are the same in any two runs that
    agree on bootstrap `b`, whatever the other bootstraps and the solver's history.  Missing:
    solver states with infinite values (`C16_negation`). -/
theorem C16_bootstrap_local_partial {env : Env K G S M RP} {Ok : List Nat → Prop} {Inv : S → Prop}
    (hR : Restarts env Ok Inv) (size : Nat) (keys : List Nat) (boots boots' : List Split)
    (hok : ∀ sp ∈ boots, Ok sp.train) (hok' : ∀ sp ∈ boots', Ok sp.train) (b : Nat)
    (hb : boots[b]? = boots'[b]?) (tasks : List Nat) (s s' : S) (hs : Inv s) (hs' : Inv s')
    (rows rows' : List (List K))
    (h : selLoop env size keys boots tasks none s = .ok rows)
    (h' : selLoop env size keys boots' tasks none s' = .ok rows') (i t : Nat)
    (hi : tasks[i]? = some t) (ht : env.selBoot size t = b) : rows[i]? = rows'[i]? :=
  selLoop_local hR hok hok' hb hs hs' (fun h => by cases h) h h' i t hi ht

/-- **C16** for the Poisson model with warm start, any optimiser that returns finite values, as
    long as no bootstrap has an all-zero response. -/
theorem C16_poisson_partial [MulZeroClass K] [DecidableEq K] (d : PoisData K RP)
    (base : Env (Ext K) G (LM K) M RP) (hsc : ∀ rows, (d.scale rows).length = d.nFeat)
    (hsol : ∀ st rp rows c i, d.solve st rp rows = .ok (c, i) →
      c.length = d.nFeat ∧ (∀ x ∈ c, x.IsFin) ∧ i.IsFin)
    (size : Nat) (keys : List Nat) (boots boots' : List Split)
    (hok : ∀ sp ∈ boots, ∃ r ∈ sp.train, d.y r ≠ 0)
    (hok' : ∀ sp ∈ boots', ∃ r ∈ sp.train, d.y r ≠ 0) (b : Nat)
    (hb : boots[b]? = boots'[b]?) (tasks : List Nat) (rows rows' : List (List (Ext K)))
    (h : selLoop (d.env base) size keys boots tasks none LM.fresh = .ok rows)
    (h' : selLoop (d.env base) size keys boots' tasks none LM.fresh = .ok rows') (i t : Nat)
    (hi : tasks[i]? = some t) (ht : base.selBoot size t = b) : rows[i]? = rows'[i]? :=
  have hfresh : FinLM d.nFeat (LM.fresh : LM K) := ⟨fun _ h => (by cases h), fun _ h => (by cases h)⟩
  C16_bootstrap_local_partial (poisson_restarts base hsc (Ok := fun tr => ∃ r ∈ tr, d.y r ≠ 0)
    (fun _ h => h) hsol) size keys boots boots' hok hok' b hb tasks _ _ hfresh hfresh rows rows' h h'
    i t hi ht

/-- **C16**, the start point: the previous coefficients are converted to the units of the standardized
    features, whose linear predictor is then that of the previous fit on the centred features. -/
theorem C16_start_units [Field K] {p : Nat} (d : PoisData K RP) (rows : List Nat) (c sc : Fin p → K)
    (b : Ext K) (hsc : d.scale rows = List.ofFn sc) (h0 : ∀ j, sc j ≠ 0) :
    ∃ c' : Fin p → K, d.start ⟨some (List.ofFn fun j => .fin (c j)), some b⟩ rows =
        (List.ofFn fun j => .fin (c' j), b) ∧
      ∀ x μ : Fin p → K, ∑ j, c' j * ((x j - μ j) / sc j) = ∑ j, c j * (x j - μ j) := by
  refine ⟨fun j => c j * sc j, ?_, fun x μ => Finset.sum_congr rfl fun j _ => ?_⟩
  · unfold PoisData.start
    rw [hsc]
    refine Prod.ext ?_ rfl
    change List.zipWith _ _ _ = List.ofFn _
    apply List.ext_getElem
    · simp
    · intro i h1 h2
      rw [List.getElem_zipWith, List.getElem_ofFn, List.getElem_ofFn, List.getElem_ofFn]
      rfl
  · have := h0 j
    field_simp

/-- A Poisson problem with two features; the optimiser's answer does not depend on the start point
    unless that contains NaN. -/
def demoPois : PoisData ℚ ℚ where
  nFeat := 2
  y r := if r < 3 then 0 else r
  logMean _ := 1
  scale _ := [1, 1]
  solve st _ rows :=
    if Ext.nan ∈ st.1 ∨ st.2 = .nan then .ok ([.nan, .nan], .nan)
    else .ok ([.fin rows.sum, .fin 0], .fin 1)

/-- Coefficients 3 and 1 start at 6 and 1/2 if the features are scaled by 2 and 1/2. -/
example : ({ demoPois with scale := fun _ => [2, 1/2] } : PoisData ℚ ℚ).start
    ⟨some [.fin 3, .fin 1], some (.fin 4)⟩ [3, 4] = ([.fin 6, .fin (1/2)], .fin 4) := by decide +kernel

/-- Sizes for `demoPois`: two bootstraps and one regularization parameter. -/
def demoPoisBase : Env (Ext ℚ) Nat (LM ℚ) Nat ℚ where
  nBootsSel := 2
  nBootsEst := 2
  nFeat := 2
  outDim := 1
  shared := true
  glm := true
  thresholds := [2]
  regParams := [1]
  draw _ g := .ok (⟨[], []⟩, g)
  fitSel s _ _ := .ok s
  selCoef _ := []
  reset s := s
  fitEst _ _ := .ok 0
  estCoef _ := []
  score _ _ _ := .ok .nan
  fitEmpty _ := .ok 0
  scoreEmpty _ _ := .ok .nan
  fitIntercept a := .ok a
  post a b := .ok (a, b)
  nan := .nan

/-- **C16** is false: the optimiser gives the same finite answer from every start point without
    NaN, and the second bootstrap is the same in both runs; but when the first bootstrap has an
    all-zero response its intercept is `-inf`, the reset turns it into NaN (`-inf * 0.`), and the
    second bootstrap's coefficients are NaN instead of finite. -/
theorem C16_negation :
    (∀ st st' rp rows, Ext.nan ∉ st.1 → st.2 ≠ .nan → Ext.nan ∉ st'.1 → st'.2 ≠ .nan →
      demoPois.solve st rp rows = demoPois.solve st' rp rows) ∧
    selLoop (demoPois.env demoPoisBase) 1 [0, 1] [⟨[3, 4], []⟩, ⟨[4, 5], []⟩] [0, 1] none LM.fresh =
      .ok [[.fin 7, .fin 0], [.fin 9, .fin 0]] ∧
    selLoop (demoPois.env demoPoisBase) 1 [0, 1] [⟨[0, 1, 2], []⟩, ⟨[4, 5], []⟩] [0, 1] none
      LM.fresh = .ok [[.fin 0, .fin 0], [.nan, .nan]] := by
  refine ⟨?_, by decide +kernel, by decide +kernel⟩
  intro st st' rp rows h1 h2 h3 h4
  simp [demoPois, h1, h2, h3, h4]

/-- The hypotheses of `C16_poisson_partial` are met by solvers with finite answers. -/
example (d : PoisData ℚ ℚ) (hd : d = { demoPois with
      solve := fun _ _ rows => .ok ([.fin rows.sum, .fin 0], .fin 1) })
    (rows rows' : List (List (Ext ℚ)))
    (h : selLoop (d.env demoPoisBase) 1 [0, 1] [⟨[3, 4], []⟩, ⟨[4, 5], []⟩] [0, 1] none LM.fresh =
      .ok rows)
    (h' : selLoop (d.env demoPoisBase) 1 [0, 1] [⟨[0, 8], []⟩, ⟨[4, 5], []⟩] [0, 1] none LM.fresh =
      .ok rows') : rows[1]? = rows'[1]? := by
  subst hd
  refine C16_poisson_partial _ demoPoisBase (fun _ => rfl) ?_ 1 [0, 1]
    [⟨[3, 4], []⟩, ⟨[4, 5], []⟩] [⟨[0, 8], []⟩, ⟨[4, 5], []⟩] ?_ ?_ 1 rfl [0, 1] _ _ h h' 1 1 rfl rfl
  · intro st rp rows c i hs
    simp only [Except.ok.injEq, Prod.mk.injEq] at hs
    obtain ⟨rfl, rfl⟩ := hs
    refine ⟨rfl, ?_, trivial⟩
    intro x hx
    simp only [List.mem_cons, List.not_mem_nil, or_false] at hx
    rcases hx with rfl | rfl <;> trivial
  · intro sp hsp
    simp only [List.mem_cons, List.not_mem_nil, or_false] at hsp
    rcases hsp with rfl | rfl
    · exact ⟨3, by simp, by simp [demoPois]⟩
    · exact ⟨4, by simp, by simp [demoPois]⟩
  · intro sp hsp
    simp only [List.mem_cons, List.not_mem_nil, or_false] at hsp
    rcases hsp with rfl | rfl
    · exact ⟨8, by simp, by simp [demoPois]⟩
    · exact ⟨4, by simp, by simp [demoPois]⟩

/-! ### C17 -/

/-- **C17**, selection: two data sets that agree on the training rows of bootstrap `b` give the
    same selection coefficients for that bootstrap, however they differ elsewhere. -/
theorem C17_selection (raw : Raw Row K S M RP) (base : Env K G S M RP) (D D' : Nat → Row)
    (hF : ∀ s t rp rows, raw.fitSel (base.reset s) rp rows = raw.fitSel (base.reset t) rp rows)
    (size : Nat) (keys : List Nat) (boots : List Split) (b : Nat) (sp : Split)
    (hb : boots[b]? = some sp) (hD : ∀ r ∈ sp.train, D r = D' r) (tasks : List Nat) (s s' : S)
    (rows rows' : List (List K))
    (h : selLoop (raw.env base D) size keys boots tasks none s = .ok rows)
    (h' : selLoop (raw.env base D') size keys boots tasks none s' = .ok rows') (i t : Nat)
    (hi : tasks[i]? = some t) (ht : base.selBoot size t = b) : rows[i]? = rows'[i]? :=
  selLoop_data hF hb (List.map_congr_left hD) (fun h => by cases h) h h' i t hi ht

/-- **C17**, estimation: with the same supports, two data sets that agree on the training rows of
    bootstrap `b` give the same estimates for every candidate on that bootstrap. -/
theorem C17_estimates [Zero K] (raw : Raw Row K S M RP) (base : Env K G S M RP) (D D' : Nat → Row)
    (supports : BArr) (nSup : Nat) (keys : List Nat) (boots : List Split) (t : Nat) (sp : Split)
    (hb : boots[t / nSup]? = some sp) (hD : ∀ r ∈ sp.train, D r = D' r) (res res' : List K × K)
    (h : estTask (raw.env base D) supports nSup keys boots t = .ok res)
    (h' : estTask (raw.env base D') supports nSup keys boots t = .ok res') : res.1 = res'.1 := by
  have hm : sp.train.map D = sp.train.map D' := List.map_congr_left hD
  unfold estTask at h h'
  obtain ⟨sup, a1, h⟩ := except_bind_ok h
  obtain ⟨sp1, a2, h⟩ := except_bind_ok h
  obtain ⟨sup', b1, h'⟩ := except_bind_ok h'
  obtain ⟨sp2, b2, h'⟩ := except_bind_ok h'
  have e1 : sup = sup' := by rw [a1] at b1; injection b1
  subst e1
  have e2 := lookup_ok a2
  have e3 := lookup_ok b2
  rw [hb] at e2 e3
  injection e2 with e2
  injection e3 with e3
  subst e2
  subst e3
  cases sup with
  | scalar x =>
    cases x with
    | true => cases h
    | false =>
      obtain ⟨m, _, h⟩ := except_bind_ok h
      obtain ⟨sc, _, h⟩ := except_bind_ok h
      obtain ⟨m', _, h'⟩ := except_bind_ok h'
      obtain ⟨sc', _, h'⟩ := except_bind_ok h'
      simp only [pure, Except.pure, Except.ok.injEq] at h h'
      subst h h'
      rfl
  | mask mask =>
    simp only at h h'
    split at h
    · rename_i hany
      rw [if_pos hany] at h'
      obtain ⟨m, c1, h⟩ := except_bind_ok h
      obtain ⟨row, c2, h⟩ := except_bind_ok h
      obtain ⟨sc, _, h⟩ := except_bind_ok h
      obtain ⟨m', d1, h'⟩ := except_bind_ok h'
      obtain ⟨row', d2, h'⟩ := except_bind_ok h'
      obtain ⟨sc', _, h'⟩ := except_bind_ok h'
      simp only [pure, Except.pure, Except.ok.injEq] at h h'
      subst h h'
      simp only [Raw.env] at c1 d1 c2 d2
      rw [hm, d1] at c1
      injection c1 with c1
      subst c1
      have : (Except.ok row : Except PyErr (List K)) = .ok row' := by rw [← c2, ← d2]; rfl
      injection this
    · rename_i hany
      rw [if_neg hany] at h'
      obtain ⟨m, _, h⟩ := except_bind_ok h
      obtain ⟨sc, _, h⟩ := except_bind_ok h
      obtain ⟨m', _, h'⟩ := except_bind_ok h'
      obtain ⟨sc', _, h'⟩ := except_bind_ok h'
      simp only [pure, Except.pure, Except.ok.injEq] at h h'
      subst h h'
      rfl

/-- **C17**, scores: the score of a fitted candidate is computed from the held-out rows only when
    the estimation target is the test set, from the training rows only when it is the training
    set. -/
theorem C17_scores (raw : Raw Row K S M RP) (base : Env K G S M RP) (D D' : Nat → Row)
    (sp : Split) (mask : List Bool) (m : M)
    (h : (raw.test = true ∧ ∀ r ∈ sp.test, D r = D' r) ∨
      (raw.test = false ∧ ∀ r ∈ sp.train, D r = D' r)) :
    (raw.env base D).score m mask sp = (raw.env base D').score m mask sp ∧
      (raw.env base D).scoreEmpty m sp = (raw.env base D').scoreEmpty m sp := by
  have : (raw.target sp).map D = (raw.target sp).map D' := by
    rcases h with ⟨h1, h2⟩ | ⟨h1, h2⟩ <;>
    · simp only [Raw.target, h1]
      exact List.map_congr_left h2
  exact ⟨by simp only [Raw.env, this], by simp only [Raw.env, this]⟩

/-- A solver that adds up the rows it sees. -/
def demoRaw : Raw ℚ ℚ ℚ ℚ ℚ where
  fitSel s rp rows := .ok (s + rp + rows.sum)
  fitEst _ rows := .ok rows.sum
  score m _ rows := .ok (m - rows.sum)
  fitEmpty rows := .ok rows.sum
  scoreEmpty m _ := .ok m
  test := true

/-- Two features for `demoRaw`. -/
def demoRawBase : Env ℚ Nat ℚ ℚ ℚ where
  nBootsSel := 2
  nBootsEst := 2
  nFeat := 2
  outDim := 1
  shared := true
  glm := false
  thresholds := [2]
  regParams := [1, 2]
  draw _ g := .ok (⟨[0], [1]⟩, g)
  fitSel s _ _ := .ok s
  selCoef s := [s, 1]
  reset _ := 0
  fitEst _ _ := .ok 0
  estCoef m := [m, m]
  score _ _ _ := .ok 0
  fitEmpty _ := .ok 0
  scoreEmpty _ _ := .ok 0
  fitIntercept a := .ok a
  post a b := .ok (a, b)
  nan := 0

/-- Row 2 is held out of the second bootstrap; changing it leaves that bootstrap's coefficients
    alone although it changes the first bootstrap's. -/
example : ∃ rows rows', selLoop (demoRaw.env demoRawBase fun r => r) 1 [0, 1]
      [⟨[1, 2], [0]⟩, ⟨[0, 1], [2]⟩] [0, 1] none 5 = .ok rows ∧
    selLoop (demoRaw.env demoRawBase fun r => if r = 2 then 9 else r) 1 [0, 1]
      [⟨[1, 2], [0]⟩, ⟨[0, 1], [2]⟩] [0, 1] none 5 = .ok rows' ∧
    rows[0]? ≠ rows'[0]? ∧ rows[1]? = rows'[1]? := by
  have h1 : selLoop (demoRaw.env demoRawBase fun r => r) 1 [0, 1]
      [⟨[1, 2], [0]⟩, ⟨[0, 1], [2]⟩] [0, 1] none 5 = .ok [[4, 1, 9, 1], [2, 1, 5, 1]] := by
    decide +kernel
  have h2 : selLoop (demoRaw.env demoRawBase fun r => if r = 2 then 9 else r) 1 [0, 1]
      [⟨[1, 2], [0]⟩, ⟨[0, 1], [2]⟩] [0, 1] none 5 = .ok [[11, 1, 23, 1], [2, 1, 5, 1]] := by
    decide +kernel
  refine ⟨_, _, h1, h2, by decide, ?_⟩
  refine C17_selection demoRaw demoRawBase _ _ (fun _ _ _ _ => rfl) 1 [0, 1] _ 1 ⟨[0, 1], [2]⟩ rfl
    ?_ [0, 1] 5 5 _ _ h1 h2 1 1 rfl rfl
  intro r hr
  simp only [List.mem_cons, List.not_mem_nil, or_false] at hr
  rcases hr with rfl | rfl <;> simp

/-! ### C73 -/

/-- A problem with one feature on which every draw, solver and score succeeds. -/
def demoOne (regs : List ℚ) (ths : List Int) (c : ℚ) : Env ℚ Nat ℚ ℚ ℚ where
  nBootsSel := 2
  nBootsEst := 2
  nFeat := 1
  outDim := 1
  shared := true
  glm := false
  thresholds := ths
  regParams := regs
  draw _ g := .ok (⟨[0], [1]⟩, g + 1)
  fitSel _ _ _ := .ok c
  selCoef s := [s]
  reset _ := 0
  fitEst mask _ := .ok (mask.count true)
  estCoef m := [m]
  score _ _ _ := .ok 1
  fitEmpty _ := .ok 0
  scoreEmpty _ _ := .ok 0
  fitIntercept _ := .ok ⟨[1], .f64, [.f 0]⟩
  post a b := .ok (a, b)
  nan := 0

/-- **C73** is false: with one feature and two regularization parameters the fit raises
    `ValueError` although every part succeeds (first clause); with one parameter it does so whenever
    the feature is selected (second clause). -/
theorem C73_negation :
    (fit (demoOne [1, 2] [1, 2] 3) 1 0 0 0).outcome = some (.error .valueError) ∧
      (fit (demoOne [1] [1, 2] 3) 1 0 0 0).outcome = some (.error .valueError) := by
  constructor <;> decide +kernel

/-- **C73**, what is left: for any data, solver and seed, a serial fit with a single coefficient
    that completes had a single regularization parameter and selected nothing. -/
theorem C73_completed_partial [LinearOrder K] [Field K] {env : Env K G S M RP}
    (h1 : env.nCoef = 1) (hE : 0 < env.nBootsEst) (g : G) (s : S) (st : FitState K)
    (h : fit env 1 0 g s = .ret st) :
    env.regParams.length = 1 ∧
      ∀ i mask, maskAt st.supports i = some mask → true ∉ mask := by
  have ho : env.outDim = 1 := by
    unfold Env.nCoef at h1; exact Nat.eq_one_of_mul_eq_one_left h1
  unfold fit at h
  rw [drawBoots_serial] at h
  obtain ⟨p, _, h⟩ := Prog.lift_bind_ret h
  unfold selection at h
  simp only [Nat.lt_irrefl, gt_iff_lt, if_false, splitPart_one, bind_assoc] at h
  obtain ⟨rows, hr, h⟩ := Prog.lift_bind_ret h
  obtain ⟨B, hB, h⟩ := Prog.lift_bind_ret h
  obtain ⟨k, hk, h⟩ := Prog.lift_bind_ret h
  rw [drawBoots_serial] at h
  obtain ⟨q, _, h⟩ := Prog.lift_bind_ret h
  obtain ⟨A, hA, hB⟩ := except_bind_ok hB
  have hfine : env.fine 1 = false := by
    cases hf : env.fine 1 with
    | false => rfl
    | true => simp [toArr3, selArr, hf] at hA
  have hA2 : A.n2 = 1 := by
    simp only [toArr3, selArr, hfine, Bool.false_eq_true, if_false, Except.ok.injEq] at hA
    subst hA
    exact h1
  have hBd : ∃ xs, B = .d1 xs := by
    have hI : intersection A (some env.thresholds) = .ok B := by
      unfold Env.intersect at hB
      split at hB
      · unfold glmIntersect at hB
        obtain ⟨s', hs', hB⟩ := except_bind_ok hB
        rw [ho] at hB
        simp only [gt_iff_lt, Nat.lt_irrefl, decide_false, Bool.false_and, Bool.false_eq_true,
          if_false, pure, Except.pure, Except.ok.injEq] at hB
        rw [hs', hB]
      · exact hB
    cases B with
    | d0 b =>
      simp [shape0] at hk
    | d1 xs => exact ⟨xs, rfl⟩
    | d2 rows => exact absurd hI (C04_negation_feature A _ hA2 rows)
  obtain ⟨xs, rfl⟩ := hBd
  constructor
  · by_contra hne
    have hb : env.nBootsSel ≠ 0 := by
      simp only [Env.fine, gt_iff_lt, decide_eq_false_iff_not] at hfine; omega
    obtain ⟨m, hm⟩ := Nat.exists_eq_succ_of_ne_zero hb
    have ht : env.selTasks 1 = 0 :: (List.range m).map Nat.succ := by
      simp only [Env.selTasks, hfine, hm, Bool.false_eq_true, if_false, Nat.succ_eq_add_one]
      exact List.range_succ_eq_map
    rw [ht] at hr
    obtain ⟨_, _, p', _, _, _, _, _, he, _⟩ := selLoop_cons hr
    rw [assignSel, if_pos ⟨hfine, h1, hne⟩] at he
    cases he
  · unfold estimation at h
    simp only [Nat.lt_irrefl, gt_iff_lt, if_false, splitPart_one] at h
    obtain ⟨res, hres, h⟩ := Prog.lift_bind_ret h
    obtain ⟨q, h2, h⟩ := Prog.lift_bind_ret h
    obtain ⟨ci, h3, h⟩ := Prog.lift_bind_ret h
    have hst : st.supports = .d1 xs := by injection h with h; rw [← h]
    intro i mask hm
    rw [hst] at hm
    simp only [maskAt, Option.map_eq_some_iff] at hm
    obtain ⟨x, hx, rfl⟩ := hm
    simp only [shape0, Except.ok.injEq] at hk
    have hik : i < k := by rw [← hk]; exact (List.getElem?_eq_some_iff.1 hx).1
    have hF := mapE_ok_iff.1 hres
    have hlt : i < (List.range (env.nBootsEst * k)).length := by
      rw [List.length_range]
      exact Nat.lt_of_lt_of_le hik (Nat.le_mul_of_pos_left k hE)
    have ht := (List.forall₂_iff_get.1 hF).2 i hlt (by rw [← hF.length_eq]; exact hlt)
    simp only [List.get_eq_getElem, List.getElem_range] at ht
    unfold estTask at ht
    obtain ⟨sup, e1, ht⟩ := except_bind_ok ht
    obtain ⟨sp, _, ht⟩ := except_bind_ok ht
    rw [Nat.mod_eq_of_lt hik] at e1
    simp only [supportAt, hx, Except.ok.injEq] at e1
    subst e1
    cases x with
    | true => cases ht
    | false => simp

/-- With one parameter and an unselected feature the fit completes. -/
example : ∃ st, fit (demoOne [1] [1, 2] 0) 1 0 0 0 = .ret st ∧ st.supports = .d1 [false] ∧
    true ∉ [false] := by
  have h : ((fit (demoOne [1] [1, 2] 0) 1 0 0 0).outcome.map fun r => r.map (·.supports)) =
      some (.ok (.d1 [false])) := by decide +kernel
  cases ho : (fit (demoOne [1] [1, 2] 0) 1 0 0 0).outcome with
  | none => rw [ho] at h; cases h
  | some r =>
    rw [ho] at h
    cases r with
    | error e => simp [Except.map] at h
    | ok st =>
      have hst : st.supports = .d1 [false] := by simpa [Except.map] using h
      have hret := ret_of_outcome ho
      exact ⟨st, hret, hst, (C73_completed_partial (by decide) (by decide) _ _ st hret).2 0 _
        (by rw [hst]; rfl)⟩

end Verif.Fit
