import Verif.Model.MakeClassification
import Verif.Spec.MakeClassification
import Verif.Lemmas.Datasets
import Verif.Lemmas.Utils
import Verif.Lemmas.Fit
import Verif.Lemmas.Reduce
/-! Lemmas on `make_classification`. -/
namespace Verif.MakeClassification
open Verif.Py Verif.Datasets Verif.Spec.MakeClassification
variable {σ : Type}

theorem sum_map_div (t : ℝ) (l : List ℝ) : (l.map (· / t)).sum = l.sum / t := by
  induction l with
  | nil => simp
  | cons a l ih => simp only [List.map_cons, List.sum_cons, ih, add_div]

theorem softmaxRow_spec (l : List ℝ) : Softmax (softmaxRow l) l := by
  refine ⟨by simp [softmaxRow], fun j v hj => ?_⟩
  unfold softmaxRow
  set M := l.foldr max (l.headD 0)
  have e : (l.map fun v => Real.exp (v - M)) = (l.map Real.exp).map (· / Real.exp M) := by
    rw [List.map_map]
    refine List.map_congr_left fun v _ => ?_
    simp [Real.exp_sub]
  simp only [e, sum_map_div, List.getElem?_map, hj, Option.map_some, Option.some.injEq]
  rw [div_div_div_cancel_right₀ (Real.exp_ne_zero M)]

/-- The probabilities are positive and add up to one. -/
theorem softmax_prob {p l : List ℝ} (h : Softmax p l) (hl : l ≠ []) : (∀ q ∈ p, 0 < q) ∧ p.sum = 1 := by
  have hp : p = (l.map Real.exp).map (· / (l.map Real.exp).sum) := by
    apply List.ext_getElem?
    intro j
    rcases lt_or_ge j l.length with hj | hj
    · rw [h.2 j _ (List.getElem?_eq_getElem hj)]
      simp [List.getElem?_map, List.getElem?_eq_getElem hj]
    · rw [List.getElem?_eq_none (by rw [h.1]; exact hj), List.getElem?_eq_none (by simpa using hj)]
  have hpos : 0 < (l.map Real.exp).sum := by
    refine List.sum_pos _ (fun v hv => ?_) (by simpa using hl)
    obtain ⟨w, -, rfl⟩ := List.mem_map.1 hv
    exact Real.exp_pos w
  constructor
  · intro q hq
    rw [hp] at hq
    obtain ⟨v, hv, rfl⟩ := List.mem_map.1 hq
    obtain ⟨w, -, rfl⟩ := List.mem_map.1 hv
    exact div_pos (Real.exp_pos w) hpos
  · rw [hp, sum_map_div, div_self hpos.ne']

theorem sum_map_mul_right (t : ℝ) (l : List ℝ) : (l.map (· * t)).sum = l.sum * t := by
  induction l with
  | nil => simp
  | cons a l ih => simp only [List.map_cons, List.sum_cons, ih, add_mul]

/-- A common shift of the predictors does not change the probabilities. -/
theorem softmax_shift (t : ℝ) (p l : List ℝ) : Softmax p (l.map (· + t)) ↔ Softmax p l := by
  have e : ((l.map (· + t)).map Real.exp).sum = (l.map Real.exp).sum * Real.exp t := by
    rw [← sum_map_mul_right, List.map_map, List.map_map]
    congr 1
    refine List.map_congr_left fun v _ => ?_
    simp [Real.exp_add]
  have e2 : ∀ v : ℝ, Real.exp (v + t) / ((l.map Real.exp).sum * Real.exp t) = Real.exp v / (l.map Real.exp).sum := by
    intro v
    rw [Real.exp_add, mul_div_mul_right _ _ (Real.exp_ne_zero t)]
  unfold Softmax
  rw [List.length_map, e]
  refine and_congr Iff.rfl ⟨fun h j v hv => ?_, fun h j v hv => ?_⟩
  · rw [← e2]
    exact h j (v + t) (by rw [List.getElem?_map, hv]; rfl)
  · rw [List.getElem?_map] at hv
    cases hj : l[j]? with
    | none => rw [hj] at hv; cases hv
    | some u =>
      rw [hj] at hv
      obtain rfl := Option.some.inj hv
      rw [e2]
      exact h j u hj

theorem argmax_oneHot {q j : Nat} {v : List Nat} (h : OneHot q v j) : argmax v = .ok j := by
  obtain ⟨hl, hj, hv⟩ := h
  cases v with
  | nil => simp at hl; omega
  | cons a v =>
    cases hi : argmax (a :: v) with
    | error e => cases hi
    | ok i =>
      obtain ⟨x, hx, hmax⟩ := argmax_spec hi
      have hxq : i < q := by rw [← hl]; exact (List.getElem?_eq_some_iff.1 hx).1
      have h1 := hv i hxq
      rw [hx, Option.some.injEq] at h1
      have h2 := (hmax j 1 (by rw [hv j hj, if_pos rfl])).1
      by_cases hij : i = j
      · rw [hij]
      · rw [if_neg hij] at h1; omega

theorem zeroAt_length (idxs : List Nat) (w : List ℝ) : (zeroAt idxs w).length = w.length := by simp [zeroAt]

theorem zeroEach_length (r : Rng σ ℝ) (n : Nat) (k : Int) : ∀ (ws : List (List ℝ)) (s : σ),
    (zeroEach r n k ws s).1.length = ws.length ∧
      ((∀ w ∈ ws, w.length = n) → ∀ w ∈ (zeroEach r n k ws s).1, w.length = n)
  | [], s => ⟨rfl, by simp [zeroEach]⟩
  | w :: ws, s => by
    obtain ⟨h1, h2⟩ := zeroEach_length r n k ws (zeroed r n k s).2
    refine ⟨by simp [zeroEach, h1], fun hw v hv => ?_⟩
    simp only [zeroEach, List.mem_cons] at hv
    rcases hv with rfl | hv
    · rw [zeroAt_length]; exact hw w (List.mem_cons_self ..)
    · exact h2 (fun u hu => hw u (List.mem_cons_of_mem _ hu)) v hv

theorem map_length {n : Nat} {ws : List (List ℝ)} {f : List ℝ → List ℝ} (hf : ∀ w, (f w).length = w.length)
    (h : ∀ w ∈ ws, w.length = n) : ∀ w ∈ ws.map f, w.length = n := by
  intro w hw
  obtain ⟨u, hu, rfl⟩ := List.mem_map.1 hw
  rw [hf]; exact h u hu

theorem le_foldr_max (a : ℝ) : ∀ (l : List ℝ), ∀ v ∈ l, v ≤ l.foldr max a
  | [], v, h => by simp at h
  | b :: l, v, h => by
    rcases List.mem_cons.1 h with rfl | h
    · exact le_max_left _ _
    · exact (le_foldr_max a l v h).trans (le_max_right _ _)

theorem foldr_max_mem (a : ℝ) : ∀ (l : List ℝ), l.foldr max a ∈ a :: l
  | [] => by simp
  | b :: l => by
    rw [List.foldr_cons]
    rcases max_choice b (l.foldr max a) with h | h
    · rw [h]; simp
    · rw [h]
      have := foldr_max_mem a l
      simp only [List.mem_cons] at this ⊢
      tauto

/-- The intercepts of more than two classes have maximum zero. -/
theorem makeW_intercept (r : Rng σ ℝ) (hg : ∀ n s, (r.gaussian n s).1.length = n) (n : Nat) (k : Int) {q : Nat} (hq : 2 < q)
    (shared : Bool) (c : ℝ) (s : σ) :
    (∀ v ∈ (makeW r n k q shared true c s).1.2, v ≤ 0) ∧ 0 ∈ (makeW r n k q shared true c s).1.2 := by
  simp only [makeW, if_pos hq, if_true]
  set l := (r.gaussian q (drawRows r n q s).2).1 with hl
  have hlen : l.length = q := hg _ _
  constructor
  · intro v hv
    obtain ⟨u, hu, rfl⟩ := List.mem_map.1 hv
    exact sub_nonpos.2 (le_foldr_max _ l u hu)
  · have h1 := foldr_max_mem (l.headD 0) l
    have h2 : l.foldr max (l.headD 0) ∈ l := by
      rcases List.mem_cons.1 h1 with h | h
      · rw [h]
        obtain ⟨a, t, e⟩ := List.exists_cons_of_ne_nil (l := l) (by intro h; rw [h, List.length_nil] at hlen; omega)
        rw [e]; simp
      · exact h
    exact List.mem_map.2 ⟨_, h2, sub_self _⟩

/-- Shapes of the coefficients and intercepts. -/
theorem makeW_shape (r : Rng σ ℝ) (hg : ∀ n s, (r.gaussian n s).1.length = n) (n : Nat) (k : Int) (q : Nat)
    (shared incl : Bool) (c : ℝ) (s : σ) :
    (makeW r n k q shared incl c s).1.1.length = (if 2 < q then q else 1) ∧
    (∀ w ∈ (makeW r n k q shared incl c s).1.1, w.length = n) ∧
    (makeW r n k q shared incl c s).1.2.length = (if 2 < q then q else 1) ∧
    (incl = false → ∀ v ∈ (makeW r n k q shared incl c s).1.2, v = 0) := by
  have hs : ∀ w : List ℝ, (w.map (· * c)).length = w.length := fun w => by simp
  by_cases hq : 2 < q
  · have hd := drawRows_length r hg n q s
    simp only [makeW, if_pos hq]
    refine ⟨?_, map_length hs ?_, ?_, ?_⟩
    · split_ifs <;> simp [hd.1, zeroEach_length]
    · split_ifs <;> first
        | exact map_length (zeroAt_length _) hd.2
        | exact (zeroEach_length r n _ _ _).2 hd.2
        | exact hd.2
    · split_ifs <;> simp [hg]
    · rintro rfl v hv
      simp only [Bool.false_eq_true, if_false, List.mem_replicate] at hv
      exact hv.2
  · have hd := drawRows_length r hg n 1 s
    simp only [makeW, if_neg hq]
    refine ⟨?_, map_length hs ?_, ?_, ?_⟩
    · split_ifs <;> simp [hd.1]
    · split_ifs <;> first
        | exact map_length (zeroAt_length _) hd.2
        | exact hd.2
    · split_ifs <;> simp [hg]
    · rintro rfl v hv
      simpa using hv

theorem zipWith_congr_mem {α β γ : Type} {f g : α → β → γ} : ∀ {as : List α} {bs : List β},
    (∀ a ∈ as, ∀ b ∈ bs, f a b = g a b) → List.zipWith f as bs = List.zipWith g as bs
  | [], _, _ => by simp
  | _ :: _, [], _ => by simp
  | a :: as, b :: bs, h => by
    rw [List.zipWith_cons_cons, List.zipWith_cons_cons, h a (by simp) b (by simp),
      zipWith_congr_mem fun a' ha b' hb => h a' (by simp [ha]) b' (by simp [hb])]

theorem logP_predictors {n : Nat} {incl : Bool} {ws : List (List ℝ)} {c x : List ℝ} (hw : ∀ w ∈ ws, w.length = n)
    (hc : incl = false → ∀ v ∈ c, v = 0) (hx : x.length = n) : logP incl ws c x = predictors n ws c x := by
  unfold logP predictors
  refine zipWith_congr_mem fun w hw' v hv => ?_
  rw [dot_eq_sum hx (hw w hw')]
  cases incl
  · rw [hc rfl v hv]; simp
  · simp [add_comm]

theorem drawEach_inTurn {α : Type} {draw : α → σ → Except PyErr (Nat × σ)} {items : List α} {s : σ} {ys : List Nat}
    (h : drawEach draw items s = .ok ys) :
    ∃ st : Nat → σ, st 0 = s ∧ ys.length = items.length ∧
      ∀ i a y, items[i]? = some a → ys[i]? = some y → draw a (st i) = .ok (y, st (i + 1)) := by
  induction items generalizing s ys with
  | nil =>
    obtain rfl := Except.ok.inj h
    exact ⟨fun _ => s, rfl, rfl, by simp⟩
  | cons a as ih =>
    simp only [drawEach] at h
    cases hd : draw a s with
    | error e => rw [hd] at h; cases h
    | ok p =>
      obtain ⟨y, s'⟩ := p
      rw [hd] at h
      dsimp only at h
      cases hr : drawEach draw as s' with
      | error e => rw [hr] at h; cases h
      | ok zs =>
        rw [hr] at h
        obtain rfl := Except.ok.inj h
        obtain ⟨st, h0, hl, hst⟩ := ih hr
        refine ⟨fun i => match i with | 0 => s | i + 1 => st i, rfl, by simp [hl], ?_⟩
        intro i b z hb hz
        cases i with
        | zero =>
          simp only [List.getElem?_cons_zero, Option.some.injEq] at hb hz
          subst hb; subst hz
          rw [hd]
          exact congrArg (fun t => Except.ok (y, t)) h0.symm
        | succ i =>
          rw [List.getElem?_cons_succ] at hb hz
          exact hst i b z hb hz

theorem finiteRow_length {x : List (Ext ℝ)} {z : List ℝ} (h : finiteRow x = .ok z) : x = z.map .fin := by
  rw [finiteRow, mapE_ok_iff] at h
  induction h with
  | nil => rfl
  | @cons a b l l' hab _ ih =>
    rw [List.map_cons, ← ih]
    cases a with
    | fin v => rw [Except.ok.inj hab]
    | nan => cases hab
    | pinf => cases hab
    | ninf => cases hab

theorem finiteRow_map (z : List ℝ) : finiteRow (z.map .fin) = .ok z := by
  rw [finiteRow, mapE_ok_iff]
  induction z with
  | nil => exact .nil
  | cons a z ih => exact .cons rfl ih

theorem drawEach_total {α : Type} {draw : α → σ → Except PyErr (Nat × σ)} {items : List α}
    (h : ∀ a ∈ items, ∀ s, ∃ p, draw a s = .ok p) (s : σ) : ∃ ys, drawEach draw items s = .ok ys := by
  induction items generalizing s with
  | nil => exact ⟨[], rfl⟩
  | cons a as ih =>
    obtain ⟨p, hp⟩ := h a (by simp) s
    obtain ⟨ys, hy⟩ := ih (fun b hb => h b (by simp [hb])) p.2
    exact ⟨p.1 :: ys, by simp only [drawEach, hp, hy]⟩

/-- A call that goes through, taken apart. -/
theorem make_ok {g : Source σ} {r : Rng σ ℝ} (hg : ∀ n s, (r.gaussian n s).1.length = n) {d : Draws σ} {m n : Nat} {k : Int}
    {q : Nat} {shared : Bool} {seed : Seed σ} {c : ℝ} {incl : Bool} {o : Out ℝ (List Nat)}
    (h : makeClassification g r d m n k q shared seed c incl = .ok o) :
    o.X.length = m ∧ (∀ x ∈ o.X, x.length = n) ∧ o.coef.length = (if 2 < q then q else 1) ∧
    (∀ w ∈ o.coef, w.length = n) ∧ o.intercept.length = (if 2 < q then q else 1) ∧
    (incl = false → ∀ v ∈ o.intercept, v = 0) ∧
    (incl = true → 2 < q → (∀ v ∈ o.intercept, v ≤ 0) ∧ 0 ∈ o.intercept) ∧
    ∃ s, labels d q (o.X.map (predictors n o.coef o.intercept)) s = .ok o.y := by
  unfold makeClassification at h
  cases hs : classState g seed with
  | error e => rw [hs] at h; cases h
  | ok s =>
    rw [hs] at h
    dsimp only at h
    split_ifs at h with h1
    cases hx : mapE finiteRow ((drawRows r n m s).1.map standardizeSample) with
    | error e => rw [hx] at h; cases h
    | ok X =>
      rw [hx] at h
      dsimp only at h
      set W := makeW r n k q shared incl c (drawRows r n m s).2 with hW
      cases hl : labels d q (X.map (logP incl W.1.1 W.1.2)) W.2 with
      | error e => rw [hl] at h; cases h
      | ok y =>
        rw [hl] at h
        obtain rfl := Except.ok.inj h
        obtain ⟨w1, w2, w3, w4⟩ := makeW_shape r hg n k q shared incl c (drawRows r n m s).2
        rw [mapE_ok_iff] at hx
        have hdr := drawRows_length r hg n m s
        have hX : ∀ x ∈ X, x.length = n := by
          intro x hx'
          obtain ⟨i, hi⟩ := List.getElem?_of_mem hx'
          have hil := (List.getElem?_eq_some_iff.1 hi).1
          have hi2 : i < ((drawRows r n m s).1.map standardizeSample).length := by rw [hx.length_eq]; exact hil
          have := List.Forall₂.get hx hi2 hil
          have e1 := finiteRow_length this
          have e2 : X.get ⟨i, hil⟩ = x := (List.getElem?_eq_some_iff.1 hi).2
          rw [e2] at e1
          have e3 : (((drawRows r n m s).1.map standardizeSample).get ⟨i, hi2⟩).length = x.length :=
            (congrArg List.length e1).trans (List.length_map ..)
          rw [← e3]
          have hmem : ((drawRows r n m s).1.map standardizeSample).get ⟨i, hi2⟩ ∈ (drawRows r n m s).1.map standardizeSample :=
            List.get_mem _ _
          obtain ⟨u, hu, he⟩ := List.mem_map.1 hmem
          rw [← he]
          simp [standardizeSample, hdr.2 u hu]
        refine ⟨?_, hX, w1, w2, w3, w4, ?_, W.2, ?_⟩
        · have := hx.length_eq
          rw [List.length_map, hdr.1] at this
          exact this.symm
        · rintro rfl hq
          exact makeW_intercept r hg n k hq shared c _
        · rw [← hl]
          congr 1
          refine List.map_congr_left fun x hx' => ?_
          exact (logP_predictors w2 w4 (hX x hx')).symm

end Verif.MakeClassification
