import Verif.Spec.FitOrder
import Verif.Props.Supports
import Verif.Lemmas.FitResult
/-!
Fits of the same data with the features in another order.
-/
namespace Verif.FitOrder
open Verif.Py Verif.Intersection Verif.Fit Verif.Spec.Fit Verif.Spec.Supports Verif.Spec.FitOrder
open Verif.Supports

variable {K G S M S' M' RP : Type}

/-! ### Draws, medians, indices -/

theorem draws_unique {env : Env K G S M RP} {env' : Env K G S' M' RP} (hd : env'.draw = env.draw)
    {est : Bool} {g h h' : G} {l l' : List Split} (a : Draws env est g l h) (b : Draws env' est g l' h')
    (hl : l'.length = l.length) : l' = l ∧ h' = h := by
  induction a generalizing l' with
  | nil g =>
    cases b with
    | nil => exact ⟨rfl, rfl⟩
    | cons _ _ => cases hl
  | cons e _ ih =>
    cases b with
    | nil => cases hl
    | cons e' b' =>
      rw [hd, e] at e'
      injection e' with e'
      injection e' with e1 e2
      subst e1 e2
      obtain ⟨rfl, rfl⟩ := ih b' (by simpa using hl)
      exact ⟨rfl, rfl⟩

theorem median_unique [LinearOrder K] [Field K] {xs : List K} {c c' : K} (h : IsMedian xs c)
    (h' : IsMedian xs c') : c' = c := by
  obtain ⟨s, hp, hs, h⟩ := h
  obtain ⟨s', hp', hs', h'⟩ := h'
  have e : s = s' := (hp.trans hp'.symm).eq_of_pairwise (fun a b _ _ h1 h2 => le_antisymm h1 h2) hs hs'
  subst e
  rcases h with ⟨k, hk, hc⟩ | ⟨k, x, y, hk, hx, hy, rfl⟩ <;>
    rcases h' with ⟨k', hk', hc'⟩ | ⟨k', x', y', hk', hx', hy', rfl⟩
  · have : k' = k := by omega
    subst this
    rw [hc] at hc'
    exact (Option.some.inj hc').symm
  · omega
  · omega
  · have : k' = k := by omega
    subst this
    rw [hx] at hx'
    rw [hy] at hy'
    rw [Option.some.inj hx', Option.some.inj hy']

theorem hasAt_unique {a : NDArr K} {idx : List Nat} {x y : K} (h : HasAt a idx x) (h' : HasAt a idx y) :
    y = x := by
  obtain ⟨p, hp, hx⟩ := h
  obtain ⟨q, hq, hy⟩ := h'
  rw [hp] at hq
  cases hq
  rw [hx] at hy
  injection hy with hy
  injection hy with hy
  exact hy.symm

theorem flatIndex2_inv {d0 d1 i j q : Nat} (h : flatIndex [d0, d1] [i, j] = some q) : i < d0 ∧ j < d1 := by
  simp only [flatIndex] at h
  split_ifs at h with h1 h2
  · exact ⟨h1, h2⟩
  · cases h
theorem hasAt2_inv {a : NDArr K} {d0 d1 i j : Nat} {x : K} (hs : a.shape = [d0, d1])
    (h : HasAt a [i, j] x) : i < d0 ∧ j < d1 := by
  obtain ⟨q, hq, -⟩ := h
  rw [hs] at hq
  exact flatIndex2_inv hq

theorem flatIndex_append_inv {d0 d1 j q : Nat} {idx : List Nat}
    (h : flatIndex [d0, d1] (idx ++ [j]) = some q) : ∃ o < d0, idx = [o] := by
  rcases idx with _ | ⟨o, _ | ⟨o', idx⟩⟩
  · simp only [List.nil_append, flatIndex] at h
    split_ifs at h
    cases h
  · exact ⟨o, (flatIndex2_inv h).1, rfl⟩
  · exfalso
    rcases idx with _ | ⟨z, idx⟩ <;> simp only [List.cons_append, List.nil_append, flatIndex] at h <;>
      split_ifs at h <;> cases h

/-- Two matrices with one entry per output and feature. -/
theorem reordered_of_entries {p D : Nat} {π : Equiv.Perm (Fin p)} {c c' : NDArr K} {f f' : Nat → Nat → K}
    (hs : c.shape = [D, p]) (hs' : c'.shape = [D, p]) (hc : ∀ o < D, ∀ j < p, HasAt c [o, j] (f o j))
    (hc' : ∀ o < D, ∀ j < p, HasAt c' [o, j] (f' o j))
    (h : ∀ o < D, ∀ j : Fin p, f' o j = f o (π j)) : Reordered π c c' := by
  refine ⟨by rw [hs, hs'], fun idx j x => ⟨fun hx => ?_, fun hx => ?_⟩⟩
  · have hx0 := hx
    obtain ⟨q, hq, -⟩ := hx
    rw [hs] at hq
    obtain ⟨o, ho, rfl⟩ := flatIndex_append_inv hq
    have := hasAt_unique (hc o ho _ (π j).2) hx0
    rw [this, ← h o ho j]
    exact hc' o ho _ j.2
  · have hx0 := hx
    obtain ⟨q, hq, -⟩ := hx
    rw [hs'] at hq
    obtain ⟨o, ho, rfl⟩ := flatIndex_append_inv hq
    have := hasAt_unique (hc' o ho _ j.2) hx0
    rw [this, h o ho j]
    exact hc o ho _ (π j).2

/-! ### Sets of features -/

theorem maskOf_length {p : Nat} (π : Equiv.Perm (Fin p)) (m : List Bool) : (maskOf π m).length = p := by
  simp [maskOf]

theorem maskOf_get {p : Nat} (π : Equiv.Perm (Fin p)) {m : List Bool} (hm : m.length = p) (j : Fin p) :
    (maskOf π m)[j.val]? = m[(π j).val]? := by
  have h1 : j.val < (maskOf π m).length := by rw [maskOf_length]; exact j.2
  have h2 : (π j).val < m.length := by rw [hm]; exact (π j).2
  rw [List.getElem?_eq_getElem h1, List.getElem?_eq_getElem h2]
  simp [maskOf, h2]

theorem maskOf_inverse {p : Nat} (π : Equiv.Perm (Fin p)) {m : List Bool} (hm : m.length = p) :
    maskOf π (maskOf π.symm m) = m := by
  refine List.ext_getElem? fun i => ?_
  by_cases hi : i < p
  · have := maskOf_get π (maskOf_length π.symm m) ⟨i, hi⟩
    rw [this, maskOf_get π.symm hm]
    simp
  · rw [List.getElem?_eq_none (by rw [maskOf_length]; omega), List.getElem?_eq_none (by omega)]

theorem maskOf_injective {p : Nat} (π : Equiv.Perm (Fin p)) {m m' : List Bool} (hm : m.length = p)
    (hm' : m'.length = p) (h : maskOf π m = maskOf π m') : m = m' := by
  refine List.ext_getElem? fun i => ?_
  by_cases hi : i < p
  · have a := maskOf_get π hm (π.symm ⟨i, hi⟩)
    have b := maskOf_get π hm' (π.symm ⟨i, hi⟩)
    rw [h, b] at a
    simpa using a.symm
  · rw [List.getElem?_eq_none (by omega), List.getElem?_eq_none (by omega)]

/-! ### Selection -/

theorem sweeps_alike {p D : Nat} {π : Equiv.Perm (Fin p)} {env : Env K G S M RP} {env' : Env K G S' M' RP}
    {R : S → S' → Prop} {train : List Nat}
    (hR : ∀ s s' rp train t t', R s s' → env.fitSel s rp train = .ok t → env'.fitSel s' rp train = .ok t' →
      R t t' ∧ ∀ o < D, ∀ j : Fin p, (env'.selCoef t')[o * p + j]? = (env.selCoef t)[o * p + π j]?)
    {s : S} {s' : S'} {rps : List RP} {rows rows' : List (List K)} (h : R s s')
    (a : Sweeps env train s rps rows) (b : Sweeps env' train s' rps rows') :
    ∀ (l : Nat) (r r' : List K), rows[l]? = some r → rows'[l]? = some r' →
      ∀ o < D, ∀ j : Fin p, r'[o * p + j.val]? = r[o * p + (π j).val]? := by
  induction a generalizing s' rows' with
  | nil => intro l r r' h1; simp at h1
  | cons e _ ih =>
    cases b with
    | cons e' b' =>
      obtain ⟨h1, h2⟩ := hR _ _ _ _ _ _ h e e'
      intro l r r' hr hr'
      cases l with
      | zero =>
        simp only [List.getElem?_cons_zero, Option.some.injEq] at hr hr'
        subst hr hr'
        exact h2
      | succ l =>
        simp only [List.getElem?_cons_succ] at hr hr'
        exact ih h1 b' l r r' hr hr'

/-- The candidate supports, in a form common to one output and to several with a common support. -/
theorem supports_spec [LinearOrder K] [Field K] {env : Env K G S M RP} (hw : SelShaped env)
    (hD : env.outDim = 1 ∨ 1 < env.outDim ∧ env.glm = true ∧ env.shared = true)
    (h1 : 2 ≤ env.thresholds.length * env.regParams.length) (h2 : 2 ≤ env.nFeat) {g : G}
    {s : S} {st : FitState K} (h : fit env 1 0 g s = .ret st) :
    ∃ splits g1, ∃ coef : Nat → Nat → List K, ∃ rows : List (List Bool),
      Draws env false g splits g1 ∧ splits.length = env.nBootsSel ∧
      (∀ b sp, splits[b]? = some sp → ∃ s0, Sweeps env sp.train (env.reset s0) env.regParams
        ((List.range env.regParams.length).map (coef b))) ∧
      st.supports = .d2 rows ∧ rows.Nodup ∧
      ∀ mask, mask ∈ rows ↔ ∃ t ∈ env.thresholds, ∃ l < env.regParams.length,
        mask.length = env.nFeat ∧ ∀ j < env.nFeat, mask[j]? = some true ↔
          ∃ c < env.outDim, t ≤ (votes coef env.nBootsSel l (c * env.nFeat + j) : Int) := by
  rcases hD with hD | ⟨hD, hglm, hsh⟩
  · obtain ⟨splits, g1, coef, rows, a1, a2, a3, a4, a5, a6⟩ := C111_supports_partial hw
      (Or.inr (Or.inl (by omega))) (by omega) (by rw [hD]; omega) h
    refine ⟨splits, g1, coef, rows, a1, a2, a3, a4, a5, fun mask => ?_⟩
    rw [a6, hD, Nat.mul_one]
    have e : ∀ (t : Int) (l j : Nat), (∃ c < 1, t ≤ (votes coef env.nBootsSel l (c * env.nFeat + j) : Int)) ↔
        t ≤ (votes coef env.nBootsSel l j : Int) := by
      intro t l j
      constructor
      · rintro ⟨c, hc, ht⟩
        have : c = 0 := by omega
        subst this
        simpa using ht
      · intro ht
        exact ⟨0, by omega, by simpa using ht⟩
    simp only [e]
  · exact C111_shared_partial hw hglm hD hsh (by omega) h1 h

/-- The supports of the two fits correspond. -/
theorem supports_alike [LinearOrder K] [Field K] {p : Nat} {π : Equiv.Perm (Fin p)} {env : Env K G S M RP}
    {env' : Env K G S' M' RP} (ha : Alike π env env') (hw : SelShaped env) (hw' : SelShaped env')
    (hD : env.outDim = 1 ∨ 1 < env.outDim ∧ env.glm = true ∧ env.shared = true)
    (h1 : 2 ≤ env.thresholds.length * env.regParams.length) (h2 : 2 ≤ p) {g : G} {s : S} {s' : S'}
    {st st' : FitState K} (h : fit env 1 0 g s = .ret st) (h' : fit env' 1 0 g s' = .ret st') :
    ∃ rows rows', st.supports = .d2 rows ∧ st'.supports = .d2 rows' ∧ rows.Nodup ∧ rows'.Nodup ∧
      (∀ m ∈ rows, m.length = p) ∧ (∀ m ∈ rows', m.length = p) ∧
      ∀ m, m.length = p → (maskOf π m ∈ rows' ↔ m ∈ rows) := by
  obtain ⟨sp, g1, coef, rows, a1, a2, a3, a4, a5, a6⟩ :=
    supports_spec hw hD h1 (by rw [ha.feat]; exact h2) h
  obtain ⟨sp', g1', coef', rows', b1, b2, b3, b4, b5, b6⟩ :=
    supports_spec hw' (by rw [ha.outDim, ha.glm, ha.shared]; exact hD)
      (by rw [ha.thresholds, ha.regParams]; exact h1) (by rw [ha.feat']; exact h2) h'
  rw [ha.feat] at a6
  rw [ha.feat', ha.outDim, ha.thresholds, ha.regParams, ha.bootsSel] at b6
  obtain ⟨rfl, rfl⟩ := draws_unique ha.draw a1 b1 (by rw [a2, b2, ha.bootsSel])
  obtain ⟨R, hr, hf⟩ := ha.sel
  have hv : ∀ l < env.regParams.length, ∀ c < env.outDim, ∀ j : Fin p,
      votes coef' env.nBootsSel l (c * p + j.val) = votes coef env.nBootsSel l (c * p + (π j).val) := by
    intro l hl c hc j
    unfold votes
    congr 1
    refine Finset.filter_congr fun b hb => ?_
    have hb' : b < sp'.length := by rw [a2]; exact Finset.mem_range.1 hb
    obtain ⟨s0, hs0⟩ := a3 b sp'[b] (List.getElem?_eq_getElem hb')
    obtain ⟨s1, hs1⟩ := b3 b sp'[b] (List.getElem?_eq_getElem hb')
    rw [ha.regParams] at hs1
    have := sweeps_alike hf (hr s0 s1) hs0 hs1 l (coef b l) (coef' b l) (by simp [hl]) (by simp [hl])
      c hc j
    rw [this]
  refine ⟨rows, rows', a4, b4, a5, b5, fun m hm => ?_, fun m hm => ?_, fun m hm => ?_⟩
  · obtain ⟨_, _, _, _, hlen, _⟩ := (a6 m).1 hm
    exact hlen
  · obtain ⟨_, _, _, _, hlen, _⟩ := (b6 m).1 hm
    exact hlen
  · rw [a6, b6]
    refine exists_congr fun t => and_congr_right fun _ => exists_congr fun l => and_congr_right fun hl => ?_
    rw [maskOf_length]
    refine ⟨fun ⟨_, H⟩ => ⟨hm, fun j hj => ?_⟩, fun ⟨_, H⟩ => ⟨rfl, fun j hj => ?_⟩⟩
    · have e := maskOf_get π hm (π.symm ⟨j, hj⟩)
      have e2 := H (π.symm ⟨j, hj⟩).val (π.symm ⟨j, hj⟩).2
      rw [e] at e2
      simp only [Equiv.apply_symm_apply] at e2
      rw [e2]
      refine exists_congr fun c => and_congr_right fun hc => ?_
      rw [hv l hl c hc (π.symm ⟨j, hj⟩)]
      simp
    · rw [maskOf_get π hm ⟨j, hj⟩, H _ (π ⟨j, hj⟩).2]
      refine exists_congr fun c => and_congr_right fun hc => ?_
      rw [← hv l hl c hc ⟨j, hj⟩]

/-! ### Estimation -/

/-- What a completed fit holds, the splits and the solver's results included. -/
theorem estimation_parts [LinearOrder K] [Field K] {env : Env K G S M RP} (hS : WellShaped env) {g : G}
    {s : S} {st : FitState K} (h : fit env 1 0 g s = .ret st) {rows : List (List Bool)}
    (hrows : st.supports = .d2 rows) :
    ∃ b1 g1 b2 g2, Draws env false g b1 g1 ∧ b1.length = env.nBootsSel ∧ Draws env true g1 b2 g2 ∧
      b2.length = env.nBootsEst ∧
      st.estimates.shape = [env.nBootsEst, rows.length, env.outDim * env.nFeat] ∧
      st.scores.shape = [env.nBootsEst, rows.length] ∧ st.rpMax.length = env.nBootsEst ∧
    ∃ (row : Nat → Nat → Nat → Nat → K) (sc : Nat → Nat → K),
      (∀ b < env.nBootsEst, ∀ i < rows.length, ∃ sp mask, b2[b]? = some sp ∧ rows[i]? = some mask ∧
        Candidate env sp mask (row b i) (sc b i) ∧ HasAt st.scores [b, i] (sc b i) ∧
        ∀ o < env.outDim, ∀ j < env.nFeat,
          HasAt st.estimates [b, i, o * env.nFeat + j] (row b i o j)) ∧
      (∀ b < env.nBootsEst, ∃ i, st.rpMax[b]? = some i ∧ i < rows.length ∧
        ∀ i' < rows.length, sc b i' ≤ sc b i ∧ (i' < i → sc b i' < sc b i)) ∧
      ∃ coef0 int0, env.fitIntercept coef0 = .ok int0 ∧
        env.post coef0 int0 = .ok (st.coef, st.intercept) ∧
        coef0.shape = [env.outDim, env.nFeat] ∧
        ∀ o < env.outDim, ∀ j < env.nFeat, ∃ c, HasAt coef0 [o, j] c ∧
          (0 < env.nBootsEst →
            IsMedian ((List.range env.nBootsEst).map fun b => row b (st.rpMax.getD b 0) o j) c) := by
  obtain ⟨b1, g1, B, k, b2, g2, a1, -, a3, a4, a5⟩ := fit_serial h
  obtain ⟨e1, e2, e3, e4, e5, row, sc, e6, e7, e8⟩ := estimation_spec hS a5
  rw [hrows] at e1
  subst e1
  have hk : k = rows.length := by
    simp only [shape0, Except.ok.injEq] at a3
    exact a3.symm
  subst hk
  have d1 := draws_of_drawList a1
  have d2 := draws_of_drawList a4
  exact ⟨b1, g1, b2, g2, d1.1, d1.2, d2.1, d2.2, e3, e4, e5, row, sc, e6, e7, e8⟩

end Verif.FitOrder
