import Verif.Lemmas.FitOrder
import Verif.Props.FitResult
import Mathlib.Tactic.IntervalCases
import Mathlib.Tactic.FinCases
/-!
C121: the order of the features does not matter to a completed fit, unless candidates tie.
-/
namespace Verif.FitOrder
open Verif.Py Verif.Intersection Verif.Fit Verif.Spec.Fit Verif.Spec.Supports Verif.Spec.FitOrder
open Verif.Supports

variable {K G S M S' M' RP : Type}

/-- C121, supports: the candidate supports of the fit with reordered features are the reordered candidate
    supports. -/
theorem C121_supports_partial [LinearOrder K] [Field K] {p : Nat} {π : Equiv.Perm (Fin p)}
    {env : Env K G S M RP} {env' : Env K G S' M' RP} (ha : Alike π env env') (hw : SelShaped env)
    (hw' : SelShaped env') (hD : env.outDim = 1 ∨ 1 < env.outDim ∧ env.glm = true ∧ env.shared = true)
    (h1 : 2 ≤ env.thresholds.length * env.regParams.length) (h2 : 2 ≤ p) {g : G} {s : S} {s' : S'}
    {st st' : FitState K} (h : fit env 1 0 g s = .ret st) (h' : fit env' 1 0 g s' = .ret st') :
    ∃ rows rows', st.supports = .d2 rows ∧ st'.supports = .d2 rows' ∧ rows'.length = rows.length ∧
      ∀ m, m ∈ rows' ↔ ∃ m0 ∈ rows, m = maskOf π m0 := by
  obtain ⟨rows, rows', e, e', n, n', l, l', hm⟩ := supports_alike ha hw hw' hD h1 h2 h h'
  have hiff : ∀ m, m ∈ rows' ↔ ∃ m0 ∈ rows, m = maskOf π m0 := by
    intro m
    constructor
    · intro h0
      have hi := maskOf_inverse π (l' m h0)
      refine ⟨maskOf π.symm m, ?_, hi.symm⟩
      rw [← hm _ (maskOf_length _ _), hi]
      exact h0
    · rintro ⟨m0, h0, rfl⟩
      exact (hm m0 (l m0 h0)).2 h0
  refine ⟨rows, rows', e, e', ?_, hiff⟩
  have hperm : rows'.Perm (rows.map (maskOf π)) := by
    refine (List.perm_ext_iff_of_nodup n' ?_).2 fun m => ?_
    · exact List.Nodup.map_on (fun a ha b hb hab => maskOf_injective π (l a ha) (l b hb) hab) n
    · rw [hiff, List.mem_map]
      exact ⟨fun ⟨a, b, c⟩ => ⟨a, b, c.symm⟩, fun ⟨a, b, c⟩ => ⟨a, b, c.symm⟩⟩
  simpa using hperm.length_eq

/-- C121, scores and estimates: a support has, in every estimation bootstrap, the same score in both fits
    and the same estimates up to the order of the features. -/
theorem C121_estimates_partial [LinearOrder K] [Field K] {p : Nat} {π : Equiv.Perm (Fin p)}
    {env : Env K G S M RP} {env' : Env K G S' M' RP} (ha : Alike π env env') (hw : SelShaped env)
    (hw' : SelShaped env') (hS : WellShaped env) (hS' : WellShaped env')
    (hD : env.outDim = 1 ∨ 1 < env.outDim ∧ env.glm = true ∧ env.shared = true)
    (h1 : 2 ≤ env.thresholds.length * env.regParams.length) (h2 : 2 ≤ p) {g : G} {s : S} {s' : S'}
    {st st' : FitState K} (h : fit env 1 0 g s = .ret st) (h' : fit env' 1 0 g s' = .ret st')
    {i i' : Nat} {mask : List Bool} (hm : maskAt st.supports i = some mask)
    (hm' : maskAt st'.supports i' = some (maskOf π mask)) {b : Nat} (hb : b < env.nBootsEst) :
    (∃ x, HasAt st.scores [b, i] x ∧ HasAt st'.scores [b, i'] x) ∧
      ∀ o < env.outDim, ∀ j : Fin p, ∃ x, HasAt st.estimates [b, i, o * p + (π j).val] x ∧
        HasAt st'.estimates [b, i', o * p + j.val] x := by
  obtain ⟨rows, rows', e, e', n, n', l, l', hmem⟩ := supports_alike ha hw hw' hD h1 h2 h h'
  obtain ⟨b1, g1, b2, g2, d1, d2, d3, d4, -, -, -, row, sc, e6, -⟩ := estimation_parts hS h e
  obtain ⟨b1', g1', b2', g2', d1', d2', d3', d4', -, -, -, row', sc', e6', -⟩ := estimation_parts hS' h' e'
  obtain ⟨rfl, rfl⟩ := draws_unique ha.draw d1 d1' (by rw [d2, d2', ha.bootsSel])
  obtain ⟨rfl, rfl⟩ := draws_unique ha.draw d3 d3' (by rw [d4, d4', ha.bootsEst])
  rw [e] at hm
  rw [e'] at hm'
  simp only [maskAt] at hm hm'
  have hi : i < rows.length := (List.getElem?_eq_some_iff.1 hm).1
  have hi' : i' < rows'.length := (List.getElem?_eq_some_iff.1 hm').1
  obtain ⟨sp, m, c1, c2, c3, c4, c5⟩ := e6 b hb i hi
  obtain ⟨sp', m', c1', c2', c3', c4', c5'⟩ := e6' b (by rw [ha.bootsEst]; exact hb) i' hi'
  rw [hm] at c2
  rw [hm'] at c2'
  cases c2
  cases c2'
  rw [c1] at c1'
  cases c1'
  have hlen := l mask (List.mem_of_getElem? hm)
  obtain ⟨hsc, hrow⟩ := ha.cand _ _ _ _ _ _ hlen c3 c3'
  refine ⟨⟨_, c4, ?_⟩, fun o ho j => ⟨row b i o (π j), ?_, ?_⟩⟩
  · rw [hsc] at c4'
    exact c4'
  · have := c5 o ho (π j) (by rw [ha.feat]; exact (π j).2)
    rwa [ha.feat] at this
  · have := c5' o (by rw [ha.outDim]; exact ho) j (by rw [ha.feat']; exact j.2)
    rwa [ha.feat', hrow o ho j] at this

/-- C121, the result: if in every estimation bootstrap one candidate support beats all the others, then the
    coefficients of the fit with reordered features are the reordered coefficients, and the intercept is
    the same.  Missing: ties (`C121_negation`), a single pair of threshold and parameter (C111), a support
    per class. -/
theorem C121_coef_partial [LinearOrder K] [Field K] {p : Nat} {π : Equiv.Perm (Fin p)}
    {env : Env K G S M RP} {env' : Env K G S' M' RP} (ha : Alike π env env') (hw : SelShaped env)
    (hw' : SelShaped env') (hS : WellShaped env) (hS' : WellShaped env') (hb : 0 < env.nBootsEst)
    (hD : env.outDim = 1 ∨ 1 < env.outDim ∧ env.glm = true ∧ env.shared = true)
    (h1 : 2 ≤ env.thresholds.length * env.regParams.length) (h2 : 2 ≤ p) {g : G} {s : S} {s' : S'}
    {st st' : FitState K} (h : fit env 1 0 g s = .ret st) (h' : fit env' 1 0 g s' = .ret st')
    (ht : NoTies env.nBootsEst st.scores) :
    Reordered π st.coef st'.coef ∧ st'.intercept = st.intercept := by
  obtain ⟨rows, rows', e, e', n, n', l, l', hmem⟩ := supports_alike ha hw hw' hD h1 h2 h h'
  obtain ⟨b1, g1, b2, g2, d1, d2, d3, d4, -, hsh, -, row, sc, e6, e7, coef0, int0, f1, f2, f3, f4⟩ :=
    estimation_parts hS h e
  obtain ⟨b1', g1', b2', g2', d1', d2', d3', d4', -, hsh', -, row', sc', e6', e7', coef0', int0', f1', f2',
    f3', f4'⟩ := estimation_parts hS' h' e'
  obtain ⟨rfl, rfl⟩ := draws_unique ha.draw d1 d1' (by rw [d2, d2', ha.bootsSel])
  obtain ⟨rfl, rfl⟩ := draws_unique ha.draw d3 d3' (by rw [d4, d4', ha.bootsEst])
  -- corresponding candidates
  have hcorr : ∀ b < env.nBootsEst, ∀ (i i' : Nat) (m : List Bool), rows[i]? = some m →
      rows'[i']? = some (maskOf π m) →
      sc' b i' = sc b i ∧ ∀ o < env.outDim, ∀ j : Fin p, row' b i' o j = row b i o (π j) := by
    intro b hb i i' m hi hi'
    obtain ⟨sp, m0, c1, c2, c3, -⟩ := e6 b hb i (List.getElem?_eq_some_iff.1 hi).1
    obtain ⟨sp', m0', c1', c2', c3', -⟩ :=
      e6' b (by rw [ha.bootsEst]; exact hb) i' (List.getElem?_eq_some_iff.1 hi').1
    rw [hi] at c2
    rw [hi'] at c2'
    cases c2
    cases c2'
    rw [c1] at c1'
    cases c1'
    exact ha.cand _ _ _ _ _ _ (l m (List.mem_of_getElem? hi)) c3 c3'
  -- the chosen candidates correspond
  have hchoice : ∀ b < env.nBootsEst, ∀ o < env.outDim, ∀ j : Fin p,
      row' b (st'.rpMax.getD b 0) o j = row b (st.rpMax.getD b 0) o (π j) := by
    intro b hb
    obtain ⟨i, ri, hi, hmax⟩ := e7 b hb
    obtain ⟨i', ri', hi', hmax'⟩ := e7' b (by rw [ha.bootsEst]; exact hb)
    rw [List.getD_eq_getElem?_getD, List.getD_eq_getElem?_getD, ri, ri']
    simp only [Option.getD_some]
    -- `i` is the candidate that beats all others
    obtain ⟨iu, x, hx, hu⟩ := ht b hb
    have hiu : iu < rows.length := (hasAt2_inv hsh hx).2
    have hsci : ∀ k < rows.length, HasAt st.scores [b, k] (sc b k) := by
      intro k hk
      obtain ⟨_, _, _, _, _, c4, _⟩ := e6 b hb k hk
      exact c4
    have hxu : sc b iu = x := hasAt_unique hx (hsci iu hiu)
    have hlt : ∀ k < rows.length, k ≠ iu → sc b k < sc b iu := by
      intro k hk hne
      rw [hxu]
      exact hu k _ hne (hsci k hk)
    have hiiu : i = iu := by
      by_contra hne
      exact absurd (hmax iu hiu).1 (not_le.2 (hlt i hi hne))
    subst hiiu
    -- the candidate of the second fit that corresponds to `i`, and the one of the first to `i'`
    have hmi : rows[i]? = some rows[i] := List.getElem?_eq_getElem hi
    have hin : maskOf π rows[i] ∈ rows' :=
      (hmem _ (l _ (List.getElem_mem hi))).2 (List.getElem_mem hi)
    obtain ⟨k', hk', hkk'⟩ := List.getElem_of_mem hin
    have hk0 : rows'[k']? = some (maskOf π rows[i]) := by rw [List.getElem?_eq_getElem hk', hkk']
    have hi0 : rows'[i']? = some rows'[i'] := List.getElem?_eq_getElem hi'
    have hinv := maskOf_inverse π (l' _ (List.getElem_mem hi'))
    have hin' : maskOf π.symm rows'[i'] ∈ rows := by
      rw [← hmem _ (maskOf_length _ _), hinv]
      exact List.getElem_mem hi'
    obtain ⟨k, hk, hkk⟩ := List.getElem_of_mem hin'
    have hk1 : rows[k]? = some (maskOf π.symm rows'[i']) := by rw [List.getElem?_eq_getElem hk, hkk]
    have s1 := (hcorr b hb i k' _ hmi hk0).1
    have s2 := hcorr b hb k i' _ hk1 (by rw [hinv]; exact hi0)
    have hki : k = i := by
      by_contra hne
      have a := (hmax' k' hk').1
      rw [s1, s2.1] at a
      exact absurd a (not_le.2 (hlt k hk hne))
    subst hki
    exact s2.2
  rw [ha.outDim] at f4' f3'
  rw [ha.feat'] at f4' f3'
  rw [ha.bootsEst] at f4'
  rw [ha.feat] at f4 f3
  choose! c hc hmed using f4
  choose! c' hc' hmed' using f4'
  have hre : Reordered π coef0 coef0' := by
    refine reordered_of_entries f3 f3' hc hc' fun o ho j => ?_
    have a := hmed o ho (π j) (π j).2 hb
    have a' := hmed' o ho j j.2 hb
    have hl : ((List.range env.nBootsEst).map fun b => row' b (st'.rpMax.getD b 0) o j) =
        (List.range env.nBootsEst).map fun b => row b (st.rpMax.getD b 0) o (π j) :=
      List.map_congr_left fun b hb => hchoice b (List.mem_range.1 hb) o ho j
    rw [hl] at a'
    exact median_unique a a'
  have hint := ha.inter _ _ _ _ hre f1 f1'
  rw [hint] at f2'
  exact ha.post _ _ _ _ _ hre f2 f2'

/-! ### Examples -/

/-- Two features exchanged. -/
def swap2 : Equiv.Perm (Fin 2) := Equiv.swap 0 1

/-- Estimators of two features: the selection solver returns `sel rp` for the parameter `rp`, the
    coefficients of a support are those of `w` scaled by a factor that depends on the rows, and the score
    is a function of their sum. -/
def demoOf (w : ℚ × ℚ) (sel : ℚ → ℚ × ℚ) (sc : ℚ → ℚ) : Env ℚ Nat ℚ (List ℚ) ℚ :=
  { demo with
    fitSel := fun _ rp _ => .ok rp
    selCoef := fun s => [(sel s).1, (sel s).2]
    fitEst := fun mask tr => .ok (mask.zipIdx.filterMap fun q =>
      if q.1 then some ((if q.2 = 0 then w.1 else w.2) * ((tr.headD 0 : Nat) + 1)) else none)
    score := fun m _ _ => .ok (sc m.sum) }

theorem demoFit_eq (x y f : ℚ) (a b : Bool) : ([a, b].zipIdx.filterMap fun q =>
    if q.1 then some ((if q.2 = 0 then x else y) * f) else none) =
      match a, b with
      | true, true => [x * f, y * f]
      | true, false => [x * f]
      | false, true => [y * f]
      | false, false => [] := by
  cases a <;> cases b <;> simp [List.zipIdx_cons]

theorem demoOf_alike (w : ℚ × ℚ) (sel : ℚ → ℚ × ℚ) (sc : ℚ → ℚ) :
    Alike swap2 (demoOf w sel sc) (demoOf w.swap (fun s => (sel s).swap) sc) where
  feat := rfl
  feat' := rfl
  outDim := rfl
  shared := rfl
  glm := rfl
  bootsSel := rfl
  bootsEst := rfl
  thresholds := rfl
  regParams := rfl
  draw := rfl
  sel := by
    refine ⟨fun s s' => s = s', fun _ _ => rfl, fun s s' rp tr t t' _ h h' => ?_⟩
    injection h with h
    injection h' with h'
    subst h h'
    refine ⟨rfl, fun o ho j => ?_⟩
    have : o = 0 := by simp [demoOf, demo] at ho; omega
    subst this
    fin_cases j <;> rfl
  cand := by
    intro sp mask row sc1 row' sc2 hl h h'
    obtain ⟨a, b, rfl⟩ : ∃ a b, mask = [a, b] := by
      rcases mask with _ | ⟨a, _ | ⟨b, _ | _⟩⟩ <;> simp at hl
      exact ⟨a, b, rfl⟩
    have hmask : maskOf swap2 [a, b] = [b, a] := rfl
    rw [hmask] at h'
    cases h with
    | empty m hm hf hsc hr =>
      have ha : a = false := hm a (by simp)
      have hb : b = false := hm b (by simp)
      subst ha hb
      cases h' with
      | empty m' hm' hf' hsc' hr' =>
        injection hsc with hsc
        injection hsc' with hsc'
        refine ⟨by rw [← hsc, ← hsc'], fun o ho j => ?_⟩
        rw [hr o ho _ (swap2 j).2, hr' o ho _ j.2]
      | shared m' _ _ ht => simp at ht
      | perCoef m' hs => cases hs
    | perCoef m hs => cases hs
    | shared m _ _ ht hf hsc hz hc =>
      cases h' with
      | empty m' hm' =>
        have ha : a = false := hm' a (by simp)
        have hb : b = false := hm' b (by simp)
        subst ha hb
        simp at ht
      | perCoef m hs => cases hs
      | shared m' _ _ _ hf' hsc' hz' hc' =>
        injection hf with hf
        injection hf' with hf'
        injection hsc with hsc
        injection hsc' with hsc'
        have L1 := demoFit_eq w.1 w.2 ((sp.train.headD 0 : Nat) + 1) a b
        have L2 := demoFit_eq w.2 w.1 ((sp.train.headD 0 : Nat) + 1) b a
        have hm : m = _ := hf.symm.trans L1
        have hm' : m' = _ := hf'.symm.trans L2
        have z0 : [a, b][0]? = some false → row 0 0 = 0 := hz 0 Nat.one_pos 0 Nat.two_pos
        have z1 : [a, b][1]? = some false → row 0 1 = 0 := hz 0 Nat.one_pos 1 Nat.one_lt_two
        have z0' : [b, a][0]? = some false → row' 0 0 = 0 := hz' 0 Nat.one_pos 0 Nat.two_pos
        have z1' : [b, a][1]? = some false → row' 0 1 = 0 := hz' 0 Nat.one_pos 1 Nat.one_lt_two
        have c0 : [a, b][0]? = some true → m[0 * [a, b].count true + ([a, b].take 0).count true]? =
          some (row 0 0) := hc 0 Nat.one_pos 0 Nat.two_pos
        have c1 : [a, b][1]? = some true → m[0 * [a, b].count true + ([a, b].take 1).count true]? =
          some (row 0 1) := hc 0 Nat.one_pos 1 Nat.one_lt_two
        have c0' : [b, a][0]? = some true → m'[0 * [b, a].count true + ([b, a].take 0).count true]? =
          some (row' 0 0) := hc' 0 Nat.one_pos 0 Nat.two_pos
        have c1' : [b, a][1]? = some true → m'[0 * [b, a].count true + ([b, a].take 1).count true]? =
          some (row' 0 1) := hc' 0 Nat.one_pos 1 Nat.one_lt_two
        have hrows : row' 0 0 = row 0 1 ∧ row' 0 1 = row 0 0 := by
          clear hf hf' hsc hsc' hz hz' hc hc' L1 L2
          generalize ((sp.train.headD 0 : Nat) : ℚ) + 1 = f at hm hm'
          subst hm hm'
          cases a <;> cases b <;> simp at z0 z1 z0' z1' c0 c1 c0' c1' ⊢ <;> grind
        refine ⟨?_, fun o ho j => ?_⟩
        · rw [← hsc, ← hsc', hm, hm']
          cases a <;> cases b <;> simp [add_comm]
        · have ho' : o < 1 := ho
          have : o = 0 := by omega
          subst this
          fin_cases j
          · exact hrows.1
          · exact hrows.2
  inter := by
    intro c c' a a' _ h h'
    injection h with h
    injection h' with h'
    rw [← h, ← h']
  post := by
    intro c c' a r r' hr h h'
    injection h with h
    injection h' with h'
    subst h h'
    exact ⟨hr, rfl⟩

theorem demoOf_shaped (w : ℚ × ℚ) (sel : ℚ → ℚ × ℚ) (sc : ℚ → ℚ) :
    SelShaped (demoOf w sel sc) := fun _ _ _ _ _ => rfl

theorem ret_of_demo {env : Env ℚ Nat ℚ (List ℚ) ℚ} {r : NDArr ℚ × NDArr ℚ}
    (h : ((fit env 1 0 0 0).outcome.map fun r => r.map fun st => (st.coef, st.scores)) = some (.ok r)) :
    ∃ st, fit env 1 0 0 0 = .ret st ∧ st.coef = r.1 ∧ st.scores = r.2 := by
  rcases ho : (fit env 1 0 0 0).outcome with _ | q
  · rw [ho] at h; cases h
  · rw [ho] at h
    rcases q with e | st
    · cases h
    · have hs : (st.coef, st.scores) = r := Except.ok.inj (Option.some.inj h)
      exact ⟨st, ret_of_outcome ho, by rw [← hs], by rw [← hs]⟩

theorem demoOf_wellShaped (w : ℚ × ℚ) (sel : ℚ → ℚ × ℚ) (sc : ℚ → ℚ) : WellShaped (demoOf w sel sc) := by
  refine ⟨show 0 < 1 by decide, fun mask tr m h => ?_⟩
  injection h with h
  subst h
  have key : ∀ (mask : List Bool) (k : Nat) (f : Nat → ℚ), ((mask.zipIdx k).filterMap fun q =>
      if q.1 then some (f q.2) else none).length = mask.count true := by
    intro mask
    induction mask with
    | nil => intros; rfl
    | cons a mask ih =>
      intro k f
      cases a <;> simp [List.zipIdx_cons, ih]
  have := key mask 0 fun i => (if i = 0 then w.1 else w.2) * ((tr.headD 0 : Nat) + 1)
  simp [demoOf, demo] at this ⊢
  exact this

/-- The second feature belongs to the support only for the smaller parameter. -/
def selA (rp : ℚ) : ℚ × ℚ := if rp = 1 then (1, 0) else (1, 1)

/-- The candidates are the first feature and both features; the first feature alone has the better score
    in both bootstraps. -/
example : ∃ st st', fit (demoOf (2, 5) selA fun x => -x) 1 0 0 0 = .ret st ∧
    fit (demoOf (5, 2) (fun s => (selA s).swap) fun x => -x) 1 0 0 0 = .ret st' ∧
    NoTies 2 st.scores ∧ st.coef = ⟨[1, 2], .f64, [.f 17, .f 0]⟩ ∧
    st'.coef = ⟨[1, 2], .f64, [.f 0, .f 17]⟩ ∧ Reordered swap2 st.coef st'.coef ∧
    st'.intercept = st.intercept := by
  obtain ⟨st, h, hc, hs⟩ := ret_of_demo (env := demoOf (2, 5) selA fun x => -x)
    (r := (⟨[1, 2], .f64, [.f 17, .f 0]⟩, ⟨[2, 2], .f64, [.f (-14), .f (-49), .f (-20), .f (-70)]⟩))
    (by decide +kernel)
  obtain ⟨st', h', hc', hs'⟩ := ret_of_demo (env := demoOf (5, 2) (fun s => (selA s).swap) fun x => -x)
    (r := (⟨[1, 2], .f64, [.f 0, .f 17]⟩, ⟨[2, 2], .f64, [.f (-14), .f (-49), .f (-20), .f (-70)]⟩))
    (by decide +kernel)
  have ht : NoTies 2 st.scores := by
    rw [hs]
    intro b hb
    refine ⟨0, if b = 0 then -14 else -20, ?_, fun i x hi hx => ?_⟩
    · interval_cases b
      · exact ⟨0, rfl, rfl⟩
      · exact ⟨2, rfl, rfl⟩
    · have := hasAt2_inv rfl hx
      have hi1 : i = 1 := by omega
      subst hi1
      interval_cases b
      · have := hasAt_unique (x := -49) ⟨1, rfl, rfl⟩ hx
        subst this
        norm_num
      · have := hasAt_unique (x := -70) ⟨3, rfl, rfl⟩ hx
        subst this
        norm_num
  exact ⟨st, st', h, h', ht, hc, hc', C121_coef_partial (demoOf_alike (2, 5) selA fun x => -x)
    (demoOf_shaped _ _ _) (demoOf_shaped _ _ _) (demoOf_wellShaped _ _ _) (demoOf_wellShaped _ _ _)
    (by decide) (Or.inl rfl) (by decide) (by decide) h h' ht⟩

/-- The candidates of the two fits of the example above, and the estimates of the candidate with one
    feature. -/
example : ∃ st st', fit (demoOf (2, 5) selA fun x => -x) 1 0 0 0 = .ret st ∧
    fit (demoOf (5, 2) (fun s => (selA s).swap) fun x => -x) 1 0 0 0 = .ret st' ∧
    st.supports = .d2 [[true, false], [true, true]] ∧ st'.supports = .d2 [[false, true], [true, true]] ∧
    ∃ x, HasAt st.estimates [1, 0, 0] x ∧ HasAt st'.estimates [1, 0, 1] x := by
  have key : ∀ (env : Env ℚ Nat ℚ (List ℚ) ℚ) (r : BArr),
      ((fit env 1 0 0 0).outcome.map fun r => r.map (·.supports)) = some (.ok r) →
      ∃ st, fit env 1 0 0 0 = .ret st ∧ st.supports = r := by
    intro env r h
    rcases ho : (fit env 1 0 0 0).outcome with _ | q
    · rw [ho] at h; cases h
    · rw [ho] at h
      rcases q with e | st
      · cases h
      · exact ⟨st, ret_of_outcome ho, Except.ok.inj (Option.some.inj h)⟩
  obtain ⟨st, h, hs⟩ := key (demoOf (2, 5) selA fun x => -x) (.d2 [[true, false], [true, true]])
    (by decide +kernel)
  obtain ⟨st', h', hs'⟩ := key (demoOf (5, 2) (fun s => (selA s).swap) fun x => -x)
    (.d2 [[false, true], [true, true]]) (by decide +kernel)
  refine ⟨st, st', h, h', hs, hs', ?_⟩
  have := C121_estimates_partial (demoOf_alike (2, 5) selA fun x => -x)
    (demoOf_shaped _ _ _) (demoOf_shaped _ _ _) (demoOf_wellShaped _ _ _) (demoOf_wellShaped _ _ _)
    (Or.inl rfl) (by decide) (by decide) h h' (i := 0) (i' := 0) (mask := [true, false])
    (by rw [hs]; rfl) (by rw [hs']; rfl) (b := 1) (by decide)
  exact this.2 0 (show 0 < 1 by decide) 1

/-- Two features that predict equally well: one is selected for the first parameter, the other for the
    second. -/
def selB (rp : ℚ) : ℚ × ℚ := if rp = 1 then (1, 0) else (0, 1)

/-- C121 is false when candidates tie: the first of the tied candidates is chosen, and the candidates are
    in the lexicographic order of their masks.  So the fit chooses the second of two features that do
    equally well, whichever that is. -/
theorem C121_negation : Alike swap2 (demoOf (1, 1) selB fun _ => 0)
      (demoOf (1, 1) (fun s => (selB s).swap) fun _ => 0) ∧
    ∃ st st', fit (demoOf (1, 1) selB fun _ => 0) 1 0 0 0 = .ret st ∧
      fit (demoOf (1, 1) (fun s => (selB s).swap) fun _ => 0) 1 0 0 0 = .ret st' ∧
      st.coef = ⟨[1, 2], .f64, [.f 0, .f (17 / 2)]⟩ ∧ st'.coef = ⟨[1, 2], .f64, [.f 0, .f (17 / 2)]⟩ ∧
      ¬ Reordered swap2 st.coef st'.coef := by
  obtain ⟨st, h, hc, -⟩ := ret_of_demo (env := demoOf (1, 1) selB fun _ => 0)
    (r := (⟨[1, 2], .f64, [.f 0, .f (17 / 2)]⟩, ⟨[2, 2], .f64, [.f 0, .f 0, .f 0, .f 0]⟩))
    (by decide +kernel)
  obtain ⟨st', h', hc', -⟩ := ret_of_demo (env := demoOf (1, 1) (fun s => (selB s).swap) fun _ => 0)
    (r := (⟨[1, 2], .f64, [.f 0, .f (17 / 2)]⟩, ⟨[2, 2], .f64, [.f 0, .f 0, .f 0, .f 0]⟩))
    (by decide +kernel)
  refine ⟨demoOf_alike (1, 1) selB fun _ => 0, st, st', h, h', hc, hc', ?_⟩
  rw [hc, hc']
  rintro ⟨-, hr⟩
  have a := (hr [0] 0 (17 / 2)).1 ⟨1, rfl, rfl⟩
  have b := hasAt_unique (x := 0) ⟨0, rfl, rfl⟩ a
  norm_num at b

end Verif.FitOrder
