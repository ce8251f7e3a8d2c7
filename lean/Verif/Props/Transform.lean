import Verif.Model.Transform
import Verif.Props.Cur
import Verif.Props.Nmf
/-!
`transform` and `fit_transform` of the decompositions (C113).
-/
namespace Verif.Transform
open Verif.Py Verif.Cur Verif.Spec.Cur

variable {K : Type} [Field K] [LinearOrder K]

/-- C113, `UoI_CUR`.  If `fit_transform` returns, the object is fitted, and the result has one row per sample
    consisting of the entries in the selected columns; `transform` of the same data gives the same again,
    and it equals `components_` if a column was selected.  If the fit raises, the exception is passed on
    and the object is unchanged. -/
theorem C113_uoi_cur {S : Type} {n d : Nat} {argsort : List K → List Nat}
    {e : Sklearn S K n d} {F : Thresholds.FloatSem} {nBoots : Nat} {maxK : Int} {fracOne : Bool}
    {ss : Thresholds.Arg} {rs : RandomState} {X : Fin n → Fin d → K} {ks : KsArg K} {cs : CsArg K}
    {w : World S} {draws : Nat → Nat → Nat → K} (hn : 0 < n) (hd : 0 < d) (obj : Obj K) :
    let r := Cur.fit argsort e F nBoots maxK fracOne ss rs X ks cs w draws
    (∀ err, r = .error err → fitTransform obj r (List.ofFn X) = (.error err, obj)) ∧
    ∀ f, r = .ok f → ∃ idx : List (Fin d), f.columnIndices = idx.map Fin.val ∧
      fitTransform obj r (List.ofFn X) = (.ok (columnsOf (List.ofFn X) idx), some f) ∧
      transform (some f) (List.ofFn X) = .ok (columnsOf (List.ofFn X) idx) ∧
      (idx ≠ [] → f.components = columnsOf (List.ofFn X) idx) := by
  dsimp only
  refine ⟨fun err h => by rw [h]; rfl, fun f h => ?_⟩
  obtain ⟨⟨idx, h1, h2⟩, h3⟩ := C54_partial hn hd h
  have hX : List.ofFn X ≠ [] := by
    intro h0
    have := congrArg List.length h0
    simp at this
    omega
  have ht : transform (some f) (List.ofFn X) = .ok (columnsOf (List.ofFn X) idx) := h2 _ hX
  refine ⟨idx, h1, ?_, ht, fun hne => ?_⟩
  · rw [h]
    show (transform (some f) (List.ofFn X), some f) = _
    rw [ht]
  · have := h3 (by rw [h1]; simpa using hne)
    rw [h2 _ hX] at this
    exact (Except.ok.inj this).symm

/-- A fit that selects the columns 0 and 1 of three, and its `fit_transform`. -/
example : ((fitTransform (new ℚ) (Cur.fit (fun l => List.range l.length) exSk ⟨fun q => .fin q, fun _ => 0⟩
    4 2 false (.float (.fin 1)) (.int 0) (fun i j => (i.val + j.val : ℚ)) .none .none ⟨0, 0⟩
    (fun _ _ _ => 1 / 2)) (List.ofFn fun i j => ((i : Fin 2).val + (j : Fin 3).val : ℚ))).1.toOption) =
      some [[0, 1], [1, 2]] := by decide +kernel

/-- C113, `CUR`: after the singular value decomposition `fit_transform` always returns `components_`, which
    are the selected columns. -/
theorem C113_cur {n d : Nat} {argsort : List K → List Nat} (ha : Argsort argsort)
    (V : Fin d → Nat → K) (maxK : Nat) (c : Option (Ext K)) (rs : RandomState)
    (X : Fin n → Fin d → K) (u : Nat → K) (hn : 0 < n) (hd : 0 < d) (obj : Obj K) :
    ∃ f, ∃ idx : List (Fin d), f.columnIndices = idx.map Fin.val ∧ idx.Nodup ∧
      f.components = columnsOf (List.ofFn X) idx ∧
      fitTransform obj (fitPlain argsort V maxK c rs X u) (List.ofFn X) = (.ok f.components, some f) := by
  obtain ⟨f, h1, h2, h3⟩ := C54_plain_ok ha V maxK c rs X u
  have h4 := C54_plain hn hd h1
  have hidx : ∃ idx : List (Fin d), f.columnIndices = idx.map Fin.val := by
    have : ∀ l : List Nat, (∀ i ∈ l, i < d) → ∃ idx : List (Fin d), l = idx.map Fin.val := by
      intro l
      induction l with
      | nil => exact fun _ => ⟨[], rfl⟩
      | cons a l ih =>
        intro h
        obtain ⟨idx, hi⟩ := ih fun i hi => h i (List.mem_cons_of_mem _ hi)
        exact ⟨⟨a, h a (List.mem_cons_self ..)⟩ :: idx, congrArg (a :: ·) hi⟩
    exact this _ h2
  obtain ⟨idx, hi⟩ := hidx
  refine ⟨f, idx, hi, ?_, ?_, ?_⟩
  · rw [hi] at h3; exact h3.of_map _
  · unfold Cur.transform at h4
    split_ifs at h4
    rw [hi, takeCols_ok] at h4
    exact (Except.ok.inj h4).symm
  · rw [h1]
    show (transform (some f) (List.ofFn X), some f) = _
    exact Prod.ext h4 rfl

example : (fitTransform (new ℚ) (fitPlain (fun l => (List.range l.length).reverse)
    (fun (i : Fin 3) (_ : Nat) => (if i.val = 0 then 3 / 5 else if i.val = 1 then 4 / 5 else 0 : ℚ)) 1
      (some (.fin 2)) .none (fun i j => ((i : Fin 2).val + 3 * j.val : ℚ)) fun _ => 1 / 2)
      (List.ofFn fun i j => ((i : Fin 2).val + 3 * (j : Fin 3).val : ℚ))).1.toOption =
    some [[3, 0], [4, 1]] := by decide +kernel

omit [LinearOrder K] in
/-- C113 (partial): an object that was never fitted refuses to transform; a fitted one accepts a matrix
    (with rows and columns) exactly if it has all selected columns.  Missing: a number of features other
    than that of the fit should be refused (`C113_negation`). -/
theorem C113_features_partial {m : Nat} (X : List (Fin m → K)) :
    transform (new K) X = .error .notFitted ∧
    ∀ f : Fitted K, X ≠ [] → 0 < m →
      ((∃ Z, transform (some f) X = .ok Z) ↔ ∀ i ∈ f.columnIndices, i < m) ∧
      ((∃ i ∈ f.columnIndices, m ≤ i) → transform (some f) X = .error .indexError) := by
  refine ⟨rfl, fun f hX hm => ?_⟩
  show ((∃ Z, Cur.transform f X = .ok Z) ↔ _) ∧ (_ → Cur.transform f X = _)
  unfold Cur.transform takeCols
  rw [if_neg (by push Not; exact ⟨hX, hm.ne'⟩)]
  constructor
  · split_ifs with h
    · exact ⟨fun _ => h, fun _ => ⟨_, rfl⟩⟩
    · exact ⟨(fun ⟨Z, hZ⟩ => by cases hZ), fun h' => absurd h' h⟩
  · rintro ⟨i, hi, hle⟩
    rw [if_neg fun h => absurd (h i hi) (by omega)]

/-- C113 is false of `UoI_CUR`: fitted on three features, with the columns 0 and 1 selected, it transforms
    samples with two features and samples with four. -/
theorem C113_negation : ∃ f : Fitted ℚ,
    Cur.fit (fun l => List.range l.length) exSk ⟨fun q => .fin q, fun _ => 0⟩
      4 2 false (.float (.fin 1)) (.int 0) (fun i j => (i.val + j.val : ℚ)) .none .none ⟨0, 0⟩
      (fun _ _ _ => 1 / 2) = .ok f ∧
    transform (some f) [(![7, 8] : Fin 2 → ℚ)] = .ok [[7, 8]] ∧
    transform (some f) [(![7, 8, 9, 10] : Fin 4 → ℚ)] = .ok [[7, 8]] := by
  have h : (Cur.fit (fun l => List.range l.length) exSk ⟨fun q => .fin q, fun _ => 0⟩
      4 2 false (.float (.fin 1)) (.int 0) (fun i j => (i.val + j.val : ℚ)) .none .none ⟨0, 0⟩
      (fun _ _ _ => 1 / 2)).map Fitted.columnIndices = .ok [0, 1] := by decide +kernel
  generalize Cur.fit (fun l => List.range l.length) exSk ⟨fun q => .fin q, fun _ => 0⟩
      4 2 false (.float (.fin 1)) (.int 0) (fun i j => (i.val + j.val : ℚ)) .none .none ⟨0, 0⟩
      (fun _ _ _ => 1 / 2) = r at h ⊢
  rcases r with err | f
  · cases h
  · have hi : f.columnIndices = [0, 1] := Except.ok.inj h
    refine ⟨f, rfl, ?_, ?_⟩
    · show Cur.transform f _ = _
      unfold Cur.transform takeCols
      rw [hi]; rfl
    · show Cur.transform f _ = _
      unfold Cur.transform takeCols
      rw [hi]; rfl

/-- C113, `UoI_NMF`: for float data `fit_transform` raises exactly if the fit does, and otherwise returns
    for every sample the weights of the regressor for the fitted components. -/
theorem C113_nmf {d : Nat} {e : Nmf.Solvers d} {s : Nmf.Est d} (hr : Nmf.Reachable d s)
    (nnreg : List (Fin d → ℝ) → (Fin d → ℝ) → List ℝ) (X : List (Fin d → ℝ)) :
    (∀ err, Nmf.fit e s X = .error err → nmfFitTransform e nnreg s .float X = .error err) ∧
    ∀ s', Nmf.fit e s X = .ok s' → ∃ comp, s'.components = some comp ∧
      nmfFitTransform e nnreg s .float X = .ok (X.map (nnreg comp)) := by
  refine ⟨fun err h => ?_, fun s' h => ?_⟩
  · unfold nmfFitTransform; rw [h]
  · obtain ⟨comp, hc, h1, -⟩ := Nmf.C61_partial hr h
    obtain ⟨W, hW, hl, hi, -⟩ := h1 nnreg X
    refine ⟨comp, hc, ?_⟩
    unfold nmfFitTransform
    rw [h]
    show Nmf.transform nnreg s' .float X = _
    rw [hW]
    congr 1
    refine List.ext_getElem? fun i => ?_
    by_cases hx : i < X.length
    · rw [hi i hx]; simp [hx]
    · rw [List.getElem?_eq_none (by omega), List.getElem?_eq_none (by simpa using not_lt.1 hx)]

/-- Solvers that return constant bases and put all bases in one cluster. -/
def exNmf : Nmf.Solvers 2 where
  nmf _ _ _ := .ok fun _ _ _ => 1
  fitPredict H := .ok (H.map fun _ => 0)
  consMeth H := H.headD fun _ => 0

/-- A fit that succeeds. -/
example : ∃ s s', Nmf.Reachable 2 s ∧ Nmf.fit exNmf s [![1, 2], ![0, 3]] = .ok s' := by
  obtain ⟨s, s', comp, h1, h2, -, -⟩ := Nmf.C60_partial (d := 2) (e := exNmf)
    (a := { nBoots := 3, ranks := .seq [1], nmf := .inst }) (ranks := [1]) (X := [![1, 2], ![0, 3]]) rfl
    (by simp) (by decide) (by decide) (by decide) (by decide) (by decide)
    (by
      intro r hr j
      simp only [List.mem_cons, List.not_mem_nil, or_false] at hr
      rcases hr with rfl | rfl <;> fin_cases j <;> simp)
    (fun b _ => ⟨_, rfl, fun k hk => by
      have : k = 1 := by simpa using hk
      subst this
      exact ⟨0, by simp⟩⟩)
    (fun H h => by
      refine ⟨_, 1, rfl, by simp, by omega, fun c hc => ?_⟩
      rw [List.mem_map]
      constructor
      · rintro ⟨_, _, rfl⟩; decide
      · rintro ⟨h1, h2⟩
        obtain ⟨x, xs, rfl⟩ := List.exists_cons_of_ne_nil h
        exact ⟨x, List.mem_cons_self .., by omega⟩)
  exact ⟨s, s', .init h1, h2⟩

end Verif.Transform
