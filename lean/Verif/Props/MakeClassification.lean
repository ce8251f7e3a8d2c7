import Verif.Lemmas.MakeClassification
import Verif.Props.Datasets
/-!
C144: `make_classification` draws its labels from the model it returns
(`/repo/src/pyuoi/datasets/__init__.py:99-176`).
-/
namespace Verif.Props.MakeClassification
open Verif.Py Verif.Datasets Verif.MakeClassification Verif.Spec.MakeClassification
variable {σ : Type}

/-- C144 (more than two classes): a call that goes through returns the requested number of samples with the requested number of
    features, a row of coefficients and an intercept for each class, and a label below the number of classes for each
    sample; the labels are drawn in turn, each from the probabilities proportional to the exponentials of the linear
    predictors of the returned coefficients and intercepts, which are positive and add up to one. -/
theorem C144_classes {g : Source σ} {r : Rng σ ℝ} (hg : ∀ n s, (r.gaussian n s).1.length = n) {d : Draws σ} {m n : Nat} {k : Int}
    {q : Nat} (hd : ∀ p s, p.length = q → ∃ j, OneHot q (d.multinomial p s).1 j) {shared : Bool} {seed : Seed σ} {c : ℝ}
    {incl : Bool} (hq : 2 < q) {o : Out ℝ (List Nat)} (h : makeClassification g r d m n k q shared seed c incl = .ok o) :
    o.X.length = m ∧ (∀ x ∈ o.X, x.length = n) ∧ o.coef.length = q ∧ (∀ w ∈ o.coef, w.length = n) ∧ o.intercept.length = q ∧
    (∀ y ∈ o.y, y < q) ∧
    InTurn (fun x s y s' => ∃ p v, Softmax p (predictors n o.coef o.intercept x) ∧ (∀ a ∈ p, 0 < a) ∧ p.sum = 1 ∧
      d.multinomial p s = (v, s') ∧ OneHot q v y) o.X o.y := by
  obtain ⟨h1, h2, h3, h4, h5, -, -, s, hl⟩ := make_ok hg h
  rw [if_pos hq] at h3 h5
  unfold labels at hl
  rw [if_pos hq] at hl
  split_ifs at hl with h0
  obtain ⟨st, -, hlen, hst⟩ := drawEach_inTurn hl
  rw [List.length_map] at hlen
  have key : ∀ i x y, o.X[i]? = some x → o.y[i]? = some y →
      ∃ p v, Softmax p (predictors n o.coef o.intercept x) ∧ (∀ a ∈ p, 0 < a) ∧ p.sum = 1 ∧
        d.multinomial p (st i) = (v, st (i + 1)) ∧ OneHot q v y := by
    intro i x y hx hy
    have := hst i (predictors n o.coef o.intercept x) y (by rw [List.getElem?_map, hx]; rfl) hy
    set l := predictors n o.coef o.intercept x with hldef
    have hll : l.length = q := by simp [hldef, predictors, h3, h5]
    have hsm := softmaxRow_spec l
    obtain ⟨pp, ps⟩ := softmax_prob hsm (by intro h; rw [h] at hll; simp at hll; omega)
    obtain ⟨j, hj⟩ := hd (softmaxRow l) (st i) (by rw [hsm.1, hll])
    unfold drawClass at this
    dsimp only at this
    rw [argmax_oneHot hj] at this
    dsimp only at this
    have := Except.ok.inj this
    rw [Prod.mk.injEq] at this
    refine ⟨softmaxRow l, _, hsm, pp, ps, Prod.ext rfl this.2, ?_⟩
    rw [← this.1]; exact hj
  refine ⟨h1, h2, h3, h4, h5, ?_, st, hlen, key⟩
  intro y hy
  obtain ⟨i, hi⟩ := List.getElem?_of_mem hy
  have hil := (List.getElem?_eq_some_iff.1 hi).1
  obtain ⟨p, v, -, -, -, -, hv⟩ := key i _ y (List.getElem?_eq_getElem (by omega)) hi
  exact hv.2.1

/-- C144 (two classes): there is one row of coefficients and one intercept, and the label of each sample is drawn in turn, 1 with
    the logistic function of the linear predictor. -/
theorem C144_two {g : Source σ} {r : Rng σ ℝ} (hg : ∀ n s, (r.gaussian n s).1.length = n) {d : Draws σ} {m n : Nat} {k : Int}
    (hd : ∀ p s, (d.binomial p s).1 ≤ 1) {shared : Bool} {seed : Seed σ} {c : ℝ} {incl : Bool} {o : Out ℝ (List Nat)}
    (h : makeClassification g r d m n k 2 shared seed c incl = .ok o) :
    o.X.length = m ∧ (∀ x ∈ o.X, x.length = n) ∧ (∀ y ∈ o.y, y < 2) ∧
    ∃ w b, o.coef = [w] ∧ w.length = n ∧ o.intercept = [b] ∧
      InTurn (fun x s y s' => d.binomial (1 / (1 + Real.exp (-(b + ∑ j : Fin n, x.getD j 0 * w.getD j 0)))) s = (y, s'))
        o.X o.y := by
  obtain ⟨h1, h2, h3, h4, h5, -, -, s, hl⟩ := make_ok hg h
  rw [if_neg (by omega)] at h3 h5
  obtain ⟨w, hw⟩ := List.length_eq_one_iff.1 h3
  obtain ⟨b, hb⟩ := List.length_eq_one_iff.1 h5
  unfold labels at hl
  rw [if_neg (by omega)] at hl
  split_ifs at hl with h0
  obtain ⟨st, -, hlen, hst⟩ := drawEach_inTurn hl
  rw [List.length_map] at hlen
  have key : ∀ i x y, o.X[i]? = some x → o.y[i]? = some y →
      d.binomial (1 / (1 + Real.exp (-(b + ∑ j : Fin n, x.getD j 0 * w.getD j 0)))) (st i) = (y, st (i + 1)) := by
    intro i x y hx hy
    have := hst i (predictors n o.coef o.intercept x) y (by rw [List.getElem?_map, hx]; rfl) hy
    have := Except.ok.inj this
    rw [Utils.sigmoid_eq, hw, hb] at this
    exact this
  refine ⟨h1, h2, ?_, w, b, hw, h4 w (by rw [hw]; simp), hb, st, hlen, key⟩
  intro y hy
  obtain ⟨i, hi⟩ := List.getElem?_of_mem hy
  have hil := (List.getElem?_eq_some_iff.1 hi).1
  have := hd (1 / (1 + Real.exp (-(b + ∑ j : Fin n, (o.X[i]'(by omega)).getD j 0 * w.getD j 0)))) (st i)
  rw [key i _ y (List.getElem?_eq_getElem (by omega)) hi] at this
  exact Nat.lt_succ_of_le this

/-- C144 (intercepts): with `include_intercept` the largest of the intercepts of more than two classes is zero, which does not
    change any probability: adding a number to all predictors leaves them as they are. -/
theorem C144_intercepts {g : Source σ} {r : Rng σ ℝ} (hg : ∀ n s, (r.gaussian n s).1.length = n) {d : Draws σ} {m n : Nat} {k : Int}
    {q : Nat} {shared : Bool} {seed : Seed σ} {c : ℝ} (hq : 2 < q) {o : Out ℝ (List Nat)}
    (h : makeClassification g r d m n k q shared seed c true = .ok o) :
    ((∀ v ∈ o.intercept, v ≤ 0) ∧ 0 ∈ o.intercept) ∧
      ∀ (t : ℝ) (x p : List ℝ), Softmax p (predictors n o.coef (o.intercept.map (· + t)) x) ↔
        Softmax p (predictors n o.coef o.intercept x) := by
  obtain ⟨-, -, -, -, -, -, h6, -⟩ := make_ok hg h
  refine ⟨h6 rfl hq, fun t x p => ?_⟩
  have e : predictors n o.coef (o.intercept.map (· + t)) x = (predictors n o.coef o.intercept x).map (· + t) := by
    unfold predictors
    rw [List.zipWith_map_right, List.map_zipWith]
    congr 1
    funext w b
    ring
  rw [e]
  exact softmax_shift t p _

/-- C144 (without intercept): all intercepts returned are zero. -/
theorem C144_no_intercept {g : Source σ} {r : Rng σ ℝ} (hg : ∀ n s, (r.gaussian n s).1.length = n) {d : Draws σ} {m n : Nat}
    {k : Int} {q : Nat} {shared : Bool} {seed : Seed σ} {c : ℝ} {o : Out ℝ (List Nat)}
    (h : makeClassification g r d m n k q shared seed c false = .ok o) : ∀ v ∈ o.intercept, v = 0 :=
  (make_ok hg h).2.2.2.2.2.1 rfl

/-- C144 (seeds): a Python integer of 32 bits stands for the generator seeded with it, other Python integers are a
    `ValueError`. -/
theorem C144_seed (g : Source σ) (r : Rng σ ℝ) (d : Draws σ) (m n : Nat) (k : Int) (q : Nat) (shared : Bool) (c : ℝ)
    (incl : Bool) (z : Int) :
    makeClassification g r d m n k q shared (.int z) c incl =
      if 0 ≤ z ∧ z ≤ 4294967295 then makeClassification g r d m n k q shared (.state (g.seeded z)) c incl
      else .error .valueError := by
  by_cases hz : 0 ≤ z ∧ z ≤ 4294967295
  · rw [if_pos hz]
    have : classState g (.int z) = .ok (g.seeded z) := if_pos ⟨hz.1, by omega⟩
    unfold makeClassification
    rw [this]; rfl
  · rw [if_neg hz]
    have : classState g (.int z) = .error .valueError := if_neg (by omega)
    unfold makeClassification
    rw [this]

/-- C144 (success): with at least two features and two samples (one, if there are more than two classes) a call goes through if no
    sample is constant and the generator draws one class in each multinomial trial. -/
theorem C144_succeeds {g : Source σ} {r : Rng σ ℝ} (hg : ∀ n s, (r.gaussian n s).1.length = n)
    (hv : ∀ n s, 2 ≤ n → ∃ a ∈ (r.gaussian n s).1, ∃ b ∈ (r.gaussian n s).1, a ≠ b) {d : Draws σ} {m n : Nat} {k : Int} {q : Nat}
    (hd : ∀ p s, p.length = q → ∃ j, OneHot q (d.multinomial p s).1 j) {shared : Bool} {seed : Seed σ} {c : ℝ} {incl : Bool}
    (hm : 1 ≤ m) (hm2 : q ≤ 2 → 2 ≤ m) (hn : 2 ≤ n) {s : σ} (hs : classState g seed = .ok s) :
    ∃ o, makeClassification g r d m n k q shared seed c incl = .ok o := by
  have hrows : ∀ (m : Nat) (s : σ), ∃ X, mapE finiteRow ((drawRows r n m s).1.map standardizeSample) = .ok X ∧ X.length = m := by
    intro m
    induction m with
    | zero => intro s; exact ⟨[], rfl, rfl⟩
    | succ m ih =>
      intro s
      obtain ⟨X, hX, hl⟩ := ih (r.gaussian n s).2
      obtain ⟨z, hz, -⟩ := C79_partial (hv n s hn)
      refine ⟨z :: X, ?_, by simp [hl]⟩
      simp only [drawRows, List.map_cons, mapE, hX, hz, finiteRow_map]
  obtain ⟨X, hX, hXl⟩ := hrows m s
  unfold makeClassification
  rw [hs]
  dsimp only
  rw [if_neg (by omega), hX]
  dsimp only
  set W := makeW r n k q shared incl c (drawRows r n m s).2
  obtain ⟨w1, -, w3, -⟩ := makeW_shape r hg n k q shared incl c (drawRows r n m s).2
  have hL : ∃ y, labels d q (X.map (logP incl W.1.1 W.1.2)) W.2 = .ok y := by
    unfold labels
    by_cases hq : 2 < q
    · rw [if_pos hq, if_neg (by intro h; have := congrArg List.length h; simp [hXl] at this; omega)]
      refine drawEach_total ?_ _
      intro l hl s
      obtain ⟨x, -, rfl⟩ := List.mem_map.1 hl
      have hlen : (softmaxRow (logP incl W.1.1 W.1.2 x)).length = q := by
        rw [(softmaxRow_spec _).1]
        simp only [logP, List.length_zipWith, W]
        rw [w1, w3, if_pos hq, min_self]
      obtain ⟨j, hj⟩ := hd _ s hlen
      refine ⟨(j, (d.multinomial (softmaxRow (logP incl W.1.1 W.1.2 x)) s).2), ?_⟩
      unfold drawClass
      dsimp only
      rw [argmax_oneHot hj]
    · rw [if_neg hq, if_neg (by rw [List.length_map, hXl]; omega)]
      exact drawEach_total (fun l _ s => ⟨_, rfl⟩) _
  obtain ⟨y, hy⟩ := hL
  rw [hy]
  exact ⟨_, rfl⟩

/-- C144 (failures): a single sample of at most two classes is a `TypeError`, and more samples of a single feature are a
    `ValueError`. -/
theorem C144_failures {g : Source σ} {r : Rng σ ℝ} (hg : ∀ n s, (r.gaussian n s).1.length = n) {d : Draws σ} {m n : Nat} {k : Int}
    {q : Nat} {shared : Bool} {seed : Seed σ} {c : ℝ} {incl : Bool} {s : σ} (hs : classState g seed = .ok s) :
    (q ≤ 2 → makeClassification g r d 1 n k q shared seed c incl = .error .typeError) ∧
    (2 ≤ m → makeClassification g r d m 1 k q shared seed c incl = .error .valueError) := by
  constructor
  · intro hq
    unfold makeClassification
    rw [hs]
    dsimp only
    rw [if_pos ⟨by omega, rfl⟩]
  · intro hm
    unfold makeClassification
    rw [hs]
    dsimp only
    rw [if_neg (by omega)]
    obtain ⟨m, rfl⟩ : ∃ m', m = m' + 1 := ⟨m - 1, by omega⟩
    obtain ⟨v, hv⟩ := List.length_eq_one_iff.1 (hg 1 s)
    have : mapE finiteRow ((drawRows r 1 (m + 1) s).1.map standardizeSample) = .error .valueError := by
      simp only [drawRows, List.map_cons, hv, C79_negation (K := ℝ) |>.1 v, mapE, finiteRow]
    rw [this]

/-- A generator for the examples: every normal draw is a vector `1, 0, 0, …`, permutations are the identity, and trials give class 0
    and class 1 in turn. -/
noncomputable def demoRng : Rng Nat ℝ :=
  { gaussian := fun n s => ((List.range n).map fun i => if i = 0 then 1 else 0, s + 1)
    coefs := fun n s => (List.replicate n 1, s + 1)
    shuffle := fun l s => (l, s)
    permutation := fun n s => (List.range n, s) }

/-- See `demoRng`. -/
def demoDraws : Draws Nat :=
  { binomial := fun _ s => (s % 2, s + 1)
    multinomial := fun p s => ((List.range p.length).map fun i => if i = s % 2 then 1 else 0, s + 1) }

theorem demo_gaussian (n s : Nat) : (demoRng.gaussian n s).1.length = n := by simp [demoRng]

theorem demo_varied (n s : Nat) (hn : 2 ≤ n) : ∃ a ∈ (demoRng.gaussian n s).1, ∃ b ∈ (demoRng.gaussian n s).1, a ≠ b := by
  refine ⟨1, ?_, 0, ?_, by norm_num⟩
  · exact List.mem_map.2 ⟨0, by simp; omega, by simp⟩
  · exact List.mem_map.2 ⟨1, by simp; omega, by simp⟩

theorem demo_binomial (p : ℝ) (s : Nat) : (demoDraws.binomial p s).1 ≤ 1 := by
  simp only [demoDraws]; omega

theorem demo_multinomial {q : Nat} (hq : 2 ≤ q) (p : List ℝ) (s : Nat) (hp : p.length = q) :
    ∃ j, OneHot q (demoDraws.multinomial p s).1 j := by
  refine ⟨s % 2, by simp [demoDraws, hp], by omega, fun i hi => ?_⟩
  simp [demoDraws, hp, List.getElem?_range hi]

/-- All hypotheses are met together, for three classes and for two. -/
example : ∃ o, makeClassification ⟨0, Int.toNat⟩ demoRng demoDraws 4 3 2 3 true (.int 7) 1 true = .ok o ∧
    o.y.length = 4 ∧ o.coef.length = 3 := by
  obtain ⟨o, ho⟩ := C144_succeeds demo_gaussian demo_varied (q := 3) (k := 2) (shared := true) (c := 1) (incl := true)
    (demo_multinomial (by norm_num)) (by norm_num : 1 ≤ 4) (by norm_num) (by norm_num : 2 ≤ 3) (g := ⟨0, Int.toNat⟩) (seed := .int 7) (s := 7) rfl
  have := C144_classes demo_gaussian (demo_multinomial (by norm_num)) (by norm_num) ho
  obtain ⟨h1, -, h3, -, -, -, st, h4, -⟩ := this
  exact ⟨o, ho, h4.trans h1, h3⟩

example : ∃ o, makeClassification ⟨0, Int.toNat⟩ demoRng demoDraws 4 3 2 2 false .none_ 1 false = .ok o ∧ o.intercept = [0] := by
  obtain ⟨o, ho⟩ := C144_succeeds demo_gaussian demo_varied (q := 2) (k := 2) (shared := false) (c := 1) (incl := false)
    (demo_multinomial (by norm_num)) (by norm_num : 1 ≤ 4) (by norm_num) (by norm_num : 2 ≤ 3) (g := ⟨0, Int.toNat⟩) (seed := .none_) (s := 0) rfl
  obtain ⟨-, -, -, w, b, -, -, hb, -⟩ := C144_two demo_gaussian demo_binomial ho
  have := C144_no_intercept demo_gaussian ho b (by rw [hb]; simp)
  exact ⟨o, ho, by rw [hb, this]⟩

example : ∃ o, makeClassification ⟨0, Int.toNat⟩ demoRng demoDraws 2 2 2 3 false (.state 5) 1 true = .ok o ∧ 0 ∈ o.intercept := by
  obtain ⟨o, ho⟩ := C144_succeeds demo_gaussian demo_varied (q := 3) (k := 2) (shared := false) (c := 1) (incl := true)
    (demo_multinomial (by norm_num)) (by norm_num : 1 ≤ 2) (by norm_num) (by norm_num : 2 ≤ 2) (g := ⟨0, Int.toNat⟩) (seed := .state 5) (s := 5) rfl
  exact ⟨o, ho, (C144_intercepts demo_gaussian (by norm_num) ho).1.2⟩

example : makeClassification ⟨0, Int.toNat⟩ demoRng demoDraws 4 3 2 3 true (.int (-1)) 1 true = .error .valueError := by
  rw [C144_seed, if_neg (by norm_num)]

example : makeClassification ⟨0, Int.toNat⟩ demoRng demoDraws 1 3 2 2 true (.int 7) 1 true = .error .typeError ∧
    makeClassification ⟨0, Int.toNat⟩ demoRng demoDraws 5 1 1 3 true (.int 7) 1 true = .error .valueError :=
  ⟨(C144_failures demo_gaussian (m := 5) (s := 7) rfl).1 (by norm_num), (C144_failures demo_gaussian (n := 1) (s := 7) rfl).2 (by norm_num)⟩

/-- C144 is false for one class, whose labels can be 0 and 1, and for seeds that are NumPy integers, which end in an
    `AttributeError`, although the other two generators accept them. -/
theorem C144_negation :
    (∃ o, makeClassification ⟨0, Int.toNat⟩ demoRng demoDraws 2 2 2 1 false (.int 7) 1 false = .ok o ∧ 0 ∈ o.y ∧ 1 ∈ o.y) ∧
    ∀ (g : Source σ) (r : Rng σ ℝ) (d : Draws σ) (m n : Nat) (k : Int) (q : Nat) (shared : Bool) (c : ℝ) (incl : Bool) (z : Int),
      0 ≤ z → z < 2 ^ 32 →
        makeClassification g r d m n k q shared (.npInt z) c incl = .error .attributeError ∧
        checkRandomState g (.npInt z) = .ok (g.seeded z) := by
  refine ⟨?_, fun g r d m n k q shared c incl z h0 h1 => ⟨rfl, if_pos ⟨h0, h1⟩⟩⟩
  have hz : standardizeSample [1, 0] = [.fin 1, .fin (-1)] := by
    have h4 : Real.sqrt 4 = 2 := by
      rw [show (4 : ℝ) = 2 ^ 2 by norm_num]
      exact Real.sqrt_sq (by norm_num)
    simp only [standardizeSample, List.sum_cons, List.sum_nil, List.length_cons, List.length_nil, List.map_cons, List.map_nil]
    norm_num [h4]
  refine ⟨⟨[[1, -1], [1, -1]], [0, 1], [[1, 0]], [0]⟩, ?_, by simp, by simp⟩
  · have hs : classState ⟨0, Int.toNat⟩ (.int 7) = .ok 7 := rfl
    have hX : drawRows demoRng 2 2 7 = ([[1, 0], [1, 0]], 9) := by
      simp [drawRows, demoRng, List.range_succ]
    have hW : makeW demoRng 2 2 1 false false 1 9 = (([[1, 0]], [0]), 10) := by
      simp [makeW, drawRows, demoRng, List.range_succ]
    unfold makeClassification
    rw [hs]
    dsimp only
    rw [hX]
    dsimp only
    rw [hW]
    simp [hz, mapE, finiteRow, labels, drawEach, drawBinary, demoDraws]

end Verif.Props.MakeClassification
