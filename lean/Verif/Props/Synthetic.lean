import Verif.Lemmas.Synthetic
import Verif.Props.Datasets
/-!
Properties of synthetic data (C127) and of the swimmer data (C128).
-/
namespace Verif.Datasets
open Verif.Py Verif.Spec.Datasets Verif.Spec.Synthetic
variable {σ : Type}

/-! ### C127: make_linear_regression -/

/-- C127 (partial: `snr` positive, at least one sample).  The noise is the standard draws times a factor
    whose square is the variance of the signal divided by `snr`. -/
theorem C127_snr_partial {r : Rng σ ℝ} {z : Nat → σ → List ℝ} {snr : ℝ} (hs : 0 < snr) {m n : Nat}
    {k : Int} {beta : Option (List ℝ)} {incl : Bool} {s : σ} {o : Out ℝ (List (Ext ℝ))}
    (h : makeLinear r z snr m n k beta incl s = .ok o) (hX : o.X ≠ []) :
    ∃ (b : List ℝ) (c f : ℝ) (draws : List ℝ), o.coef = [b] ∧ o.intercept = [c] ∧ 0 ≤ f ∧
      f ^ 2 * snr = variance (o.X.map fun x => predictor c x b) ∧
      variance (draws.map (f * ·)) * snr =
        variance (o.X.map fun x => predictor c x b) * variance draws ∧
      o.y = List.zipWith (fun x d => .fin (predictor c x b + f * d)) o.X draws := by
  simp only [makeLinear, makeRegression] at h
  generalize (makeBeta r n k beta (drawRows r n m s).2).1 = b at h
  generalize (makeIntercept r incl (makeBeta r n k beta (drawRows r n m s).2).2) = cs at h
  generalize (drawRows r n m s).1 = X at h
  split_ifs at h
  cases h
  have hv : npVar (X.map fun x => cs.1 + dot x b) = variance (X.map fun x => predictor cs.1 x b) :=
    npVar_eq (by simpa using hX)
  have h0 := npVar_nonneg (X.map fun x => cs.1 + dot x b)
  have hsq : Real.sqrt (npVar (X.map fun x => cs.1 + dot x b) / snr) ^ 2 * snr =
      variance (X.map fun x => predictor cs.1 x b) := by
    rw [Real.sq_sqrt (div_nonneg h0 hs.le), hv]
    field_simp
  refine ⟨b, cs.1, Real.sqrt (npVar (X.map fun x => cs.1 + dot x b) / snr),
    z (X.map fun x => cs.1 + dot x b).length cs.2, rfl, rfl, Real.sqrt_nonneg _, hsq, ?_, ?_⟩
  · rw [variance_scale, ← hsq]; ring
  · simp only [linearResponse]
    rw [noiseScale_pos hs h0, List.zipWith_map_left]
    rfl

/-- A generator whose normal draws count up and whose coefficients are two. -/
def demoRng : Rng Nat ℝ where
  gaussian n s := ((List.range n).map fun i => ((i + s : Nat) : ℝ), s + 1)
  coefs n s := (List.replicate n 2, s)
  shuffle l s := (l, s)
  permutation n s := (List.range n, s)

/-- Two samples `0` and `1` of one feature with coefficient two: the signal is `0, 2` with variance one, and
    with `snr = 4` the noise is half the draws. -/
example : ∃ o, makeLinear demoRng (fun n _ => List.replicate n 1) 4 2 1 1 none false 0 = .ok o ∧
    o.X = [[0], [1]] ∧ o.coef = [[2]] ∧ ∃ f : ℝ, 0 ≤ f ∧ f ^ 2 * 4 = 1 ∧ o.y = [.fin f, .fin (2 + f)] := by
  have h : makeLinear demoRng (fun n _ => List.replicate n 1) 4 2 1 1 none false 0 =
      .ok ⟨[[0], [1]], linearResponse 4 (fun n _ => List.replicate n 1) [0, 2] 2, [[2]], [0]⟩ := by
    simp [makeLinear, makeRegression, makeBeta, makeIntercept, demoRng, drawRows, informative, sliceLen, dot]
  obtain ⟨b, c, f, draws, h1, h2, h3, h4, _, h6⟩ := C127_snr_partial (by norm_num) h (by simp)
  refine ⟨_, h, rfl, rfl, f, h3, ?_, ?_⟩
  · cases h1; cases h2
    rw [h4]
    norm_num [variance, predictor]
  · have hy : linearResponse 4 (fun n (_ : Nat) => List.replicate n 1) [0, 2] 2 =
        [.fin (0 + Real.sqrt (npVar [0, 2] / 4) * 1), .fin (2 + Real.sqrt (npVar [0, 2] / 4) * 1)] := by
      simp only [linearResponse]
      rw [noiseScale_pos (by norm_num) (npVar_nonneg _)]
      rfl
    have hf : f = Real.sqrt (npVar [0, 2] / 4) := by
      have h4' : f ^ 2 = npVar [0, 2] / 4 := by
        have : npVar ([0, 2] : List ℝ) = 1 := by norm_num [npVar]
        rw [this]
        cases h1; cases h2
        have : variance (([[0], [1]] : List (List ℝ)).map fun x => predictor 0 x [2]) = 1 := by
          norm_num [variance, predictor]
        simp only at h4
        rw [this] at h4
        linarith
      rw [← h4', Real.sqrt_sq h3]
    rw [hf]
    exact hy.trans (by simp)

/-- C127.  Without informative features (or with a single sample, or any other constant signal) there is no
    noise at all: every response is the intercept. -/
theorem C127_null_negation {r : Rng σ ℝ} (hd : ∀ n s, (r.coefs n s).1.length = n)
    (hsh : ∀ l s, (r.shuffle l s).1.Perm l) {z : Nat → σ → List ℝ} (hz : ∀ n s, (z n s).length = n)
    {snr : ℝ} (hs : 0 < snr) (m n : Nat) (incl : Bool) (s : σ) :
    ∃ o c, makeLinear r z snr m n 0 none incl s = .ok o ∧ o.intercept = [c] ∧ o.y.length = o.X.length ∧
      ∀ y ∈ o.y, y = .fin c := by
  have hb : ∀ s, (makeBeta r n 0 none s).1.length = n ∧ ∀ v ∈ (makeBeta r n 0 none s).1, v = 0 := by
    intro s
    have hsp := C62_regression r hd hsh (n := n) (k := 0) s
    obtain ⟨h1, keep, h2, h3⟩ := hsp
    have h1' : (makeBeta r n 0 none s).1.length = (r.coefs n s).1.length := h1
    have h3' : ∀ i : Fin (r.coefs n s).1.length, (makeBeta r n 0 none s).1[i.val]? =
      some (if i ∈ keep then (r.coefs n s).1[i] else 0) := h3
    refine ⟨h1'.trans (hd n s), fun v hv => ?_⟩
    rw [Nat.zero_min, Finset.card_eq_zero] at h2
    obtain ⟨i, hi, rfl⟩ := List.getElem_of_mem hv
    have := h3' ⟨i, h1' ▸ hi⟩
    rw [List.getElem?_eq_getElem hi] at this
    rw [if_neg (by rw [h2]; simp)] at this
    exact Option.some.inj this
  simp only [makeLinear, makeRegression]
  rw [if_neg (not_not.2 (hb _).1)]
  refine ⟨_, _, rfl, rfl, ?_, ?_⟩
  · simp [linearResponse, hz]
  · intro y hy
    simp only [linearResponse] at hy
    have hall : ∀ c : ℝ, ∀ X : List (List ℝ), ∀ s, ∀ e ∈ X.map (fun x => c + dot x (makeBeta r n 0 none s).1),
        e = c := by
      intro c X s e he
      obtain ⟨x, _, rfl⟩ := List.mem_map.1 he
      rw [dot_zero (hb s).2, add_zero]
    rw [npVar_const (hall _ _ _), noiseScale_pos hs le_rfl, zero_div, Real.sqrt_zero] at hy
    obtain ⟨i, hi, rfl⟩ := List.getElem_of_mem hy
    rw [List.getElem_zipWith]
    simp only [addNoise, zero_mul, add_zero]
    congr 1
    exact hall _ _ _ _ (List.getElem_mem _)

example : ∃ o c, makeLinear demoRng (fun n _ => List.replicate n 1) 5 3 2 0 none true 0 = .ok o ∧
    o.intercept = [c] ∧ o.y.length = o.X.length ∧ ∀ y ∈ o.y, y = .fin c :=
  C127_null_negation (fun n s => by simp [demoRng]) (fun l s => .refl _) (fun n s => by simp)
    (by norm_num) 3 2 true 0

/-- C127.  A signal without variation is not given any noise, for example that of a single sample. -/
theorem C127_single_negation {z : Nat → σ → List ℝ} (hz : ∀ n s, (z n s).length = n) {snr : ℝ}
    (hs : 0 < snr) (e : ℝ) (s : σ) : linearResponse snr z [e] s = [.fin e] := by
  unfold linearResponse
  rw [npVar_const (l := [e]) (c := e) (by simp), noiseScale_pos hs le_rfl, zero_div, Real.sqrt_zero]
  have := hz 1 s
  obtain ⟨d, hd⟩ := List.length_eq_one_iff.1 this
  simp [hd, addNoise]

example : linearResponse 5 (fun n (_ : Nat) => List.replicate n 1) [7] 0 = [.fin 7] :=
  C127_single_negation (fun n s => by simp) (by norm_num) 7 0

/-- C127.  A negative `snr` is accepted; if the signal varies, all responses are NaN. -/
theorem C127_negative {z : Nat → σ → List ℝ} {snr : ℝ} (hs : snr < 0) {eta : List ℝ}
    (hv : npVar eta ≠ 0) (s : σ) : ∀ y ∈ linearResponse snr z eta s, y = .nan := by
  intro y hy
  have h0 : 0 < npVar eta := lt_of_le_of_ne (npVar_nonneg _) (Ne.symm hv)
  unfold linearResponse noiseScale at hy
  rw [if_neg hs.ne, if_pos (div_neg_of_pos_of_neg h0 hs)] at hy
  obtain ⟨i, hi, rfl⟩ := List.getElem_of_mem hy
  rw [List.getElem_zipWith]
  rfl

example : linearResponse (-5) (fun n (_ : Nat) => List.replicate n 1) [0, 2] 0 = [.nan, .nan] :=
  List.ext_getElem (by simp [linearResponse]) fun i h1 h2 => by
    rw [C127_negative (by norm_num) (by norm_num [npVar]) 0 _ (List.getElem_mem h1)]
    have : i < 2 := by simpa using h2
    obtain rfl | rfl : i = 0 ∨ i = 1 := by omega
    all_goals rfl

/-- C127.  `snr = 0` is accepted; if the signal varies, each response is infinite with the sign of its draw
    (NaN if that is zero), and if the signal does not vary all responses are NaN. -/
theorem C127_zero {z : Nat → σ → List ℝ} {eta : List ℝ} {s : σ} {i : Nat} {d : ℝ} (hi : i < eta.length)
    (hd : (z eta.length s)[i]? = some d) :
    (npVar eta ≠ 0 → 0 < d → (linearResponse 0 z eta s)[i]? = some .pinf) ∧
    (npVar eta ≠ 0 → d < 0 → (linearResponse 0 z eta s)[i]? = some .ninf) ∧
    (npVar eta = 0 ∨ d = 0 → (linearResponse 0 z eta s)[i]? = some .nan) := by
  have e : ∀ v, addNoise (noiseScale (npVar eta) 0) eta[i] d = v → (linearResponse 0 z eta s)[i]? = some v := by
    rintro _ rfl
    unfold linearResponse
    rw [List.getElem?_zipWith, List.getElem?_eq_getElem hi, hd]
  refine ⟨fun hv h => e _ ?_, fun hv h => e _ ?_, fun h => e _ ?_⟩
  · unfold noiseScale
    rw [if_pos rfl, if_neg hv]
    simp only [addNoise, if_neg h.ne', if_pos h]
  · unfold noiseScale
    rw [if_pos rfl, if_neg hv]
    simp only [addNoise, if_neg h.ne, if_neg h.not_gt]
  · unfold noiseScale
    rw [if_pos rfl]
    by_cases hv : npVar eta = 0
    · rw [if_pos hv]; rfl
    · rw [if_neg hv]
      simp only [addNoise, if_pos (h.resolve_left hv)]

example : (linearResponse 0 (fun n (_ : Nat) => List.replicate n (-1)) [0, 2] 0)[1]? = some .ninf :=
  (C127_zero (d := -1) (by simp) (by simp)).2.1 (by norm_num [npVar]) (by norm_num)

/-! ### C127: make_classification -/

/-- C127.  A sample of `make_classification` (not constant) has features of mean zero and mean square one. -/
theorem C127_sample {x : List ℝ} (hx : npVar x ≠ 0) :
    ∃ v : List ℝ, standardizeSample x = v.map .fin ∧ v.length = x.length ∧ v.sum = 0 ∧
      (v.map (· ^ 2)).sum = (x.length : ℝ) := by
  have hpos : 0 < npVar x := lt_of_le_of_ne (npVar_nonneg _) (Ne.symm hx)
  have hl : (x.length : ℝ) ≠ 0 := by
    intro h0
    have : x = [] := List.length_eq_zero_iff.1 (Nat.cast_eq_zero.1 h0)
    rw [this] at hx
    exact hx (by simp [npVar])
  have hsd : Real.sqrt ((x.map fun v => (v - x.sum / x.length) ^ 2).sum / x.length) ≠ 0 :=
    (Real.sqrt_pos.2 hpos).ne'
  generalize hs : Real.sqrt ((x.map fun v => (v - x.sum / x.length) ^ 2).sum / x.length) = sd at hsd
  have hsq : sd ^ 2 = npVar x := by rw [← hs]; exact Real.sq_sqrt hpos.le
  refine ⟨x.map fun v => (v - x.sum / x.length) / sd, ?_, by simp, ?_, ?_⟩
  · simp only [standardizeSample, hs, List.map_map]
    refine List.map_congr_left fun v _ => ?_
    simp only [Function.comp, if_neg hsd]
  · have : (x.map fun v => (v - x.sum / x.length) / sd) =
        (x.map fun v => v - x.sum / x.length).map (sd⁻¹ * ·) := by
      rw [List.map_map]
      refine List.map_congr_left fun v _ => ?_
      simp only [Function.comp]; field_simp
    rw [this, sum_map_mul, sum_map_sub]
    field_simp
    ring
  · have : ((x.map fun v => (v - x.sum / x.length) / sd).map (· ^ 2)) =
        (x.map fun v => (v - x.sum / x.length) ^ 2).map ((npVar x)⁻¹ * ·) := by
      rw [List.map_map, List.map_map]
      refine List.map_congr_left fun v _ => ?_
      simp only [Function.comp, ← hsq]; field_simp
    rw [this, sum_map_mul]
    have h2 : (x.map fun v => (v - x.sum / x.length) ^ 2).sum = npVar x * x.length := by
      unfold npVar; rw [div_mul_cancel₀ _ hl]
    rw [h2]
    field_simp

example : ∃ v : List ℝ, standardizeSample [1, 2, 6] = v.map .fin ∧ v.length = 3 ∧ v.sum = 0 ∧
    (v.map (· ^ 2)).sum = 3 := by
  obtain ⟨v, h1, h2, h3, h4⟩ := C127_sample (x := [1, 2, 6]) (by norm_num [npVar])
  exact ⟨v, h1, h2, h3, h4.trans (by norm_num)⟩

/-- C127.  The log-odds of a sample are its linear predictors with the intercepts that are returned (zeros
    without `include_intercept`). -/
theorem C127_logits {incl : Bool} {ws : List (List ℝ)} {c x : List ℝ} (hc : incl = false → ∀ k ∈ c, k = 0)
    {i : Nat} {w : List ℝ} {k : ℝ} (hw : ws[i]? = some w) (hk : c[i]? = some k) :
    (logP incl ws c x)[i]? = some (predictor k x w) := by
  unfold logP
  rw [List.getElem?_zipWith, hw, hk]
  cases incl with
  | true => exact congrArg some (add_comm _ _)
  | false =>
    rw [hc rfl k (List.mem_of_getElem? hk)]
    exact congrArg some (zero_add _).symm

example : (logP true [[1, 2], [0, 3]] [5, 7] [1, -1])[1]? = some 4 :=
  (C127_logits (by simp) rfl rfl).trans (by norm_num [predictor])

/-- C127.  Since the features of each sample sum to zero, the data do not determine the coefficients, nor
    even their supports: for any coefficients there are others, none of them zero, with which every sample
    has the same class probabilities. -/
theorem C127_support_negation (incl : Bool) {n : Nat} (ws : List (List ℝ)) (hw : ∀ w ∈ ws, w.length = n)
    (c : List ℝ) : ∃ ws' : List (List ℝ), ws'.length = ws.length ∧ (∀ w ∈ ws', w.length = n) ∧
      (∀ w ∈ ws', ∀ v ∈ w, v ≠ 0) ∧
      ∀ v : List ℝ, v.length = n → v.sum = 0 → logP incl ws' c v = logP incl ws c v := by
  have hsh : ∀ w : List ℝ, ∃ t : ℝ, ∀ v ∈ w, 0 < v + t := by
    intro w
    induction w with
    | nil => exact ⟨0, fun v hv => by cases hv⟩
    | cons a w ih =>
      obtain ⟨t, ht⟩ := ih
      refine ⟨max t (1 - a), fun v hv => ?_⟩
      rcases List.mem_cons.1 hv with rfl | hv
      · have := le_max_right t (1 - v); linarith
      · have := ht v hv; have := le_max_left t (1 - a); linarith
  choose T hT using hsh
  refine ⟨ws.map fun w => w.map (· + T w), by simp, ?_, ?_, ?_⟩
  · intro w hw'
    obtain ⟨w0, h0, rfl⟩ := List.mem_map.1 hw'
    rw [List.length_map]; exact hw w0 h0
  · intro w hw' v hv
    obtain ⟨w0, h0, rfl⟩ := List.mem_map.1 hw'
    obtain ⟨u, hu, rfl⟩ := List.mem_map.1 hv
    exact (hT w0 u hu).ne'
  · intro v hv h0
    have hd : ∀ w ∈ ws, dot v (w.map (· + T w)) = dot v w := by
      intro w hw'
      rw [dot_shift _ (hv.trans (hw w hw').symm), h0, mul_zero, add_zero]
    unfold logP
    rw [List.zipWith_map_left]
    clear hw
    induction ws generalizing c with
    | nil => rfl
    | cons w ws ih =>
      cases c with
      | nil => rfl
      | cons k c =>
        simp only [List.zipWith_cons_cons]
        rw [ih c fun w' h' => hd w' (List.mem_cons_of_mem _ h'), hd w List.mem_cons_self]

/-- Coefficients with one informative feature, and others with none that is zero. -/
example : ∃ ws' : List (List ℝ), ws'.length = 1 ∧ (∀ w ∈ ws', w.length = 3) ∧
    (∀ w ∈ ws', ∀ v ∈ w, v ≠ 0) ∧
    ∀ v : List ℝ, v.length = 3 → v.sum = 0 → logP true ws' [1] v = logP true [[0, 5, 0]] [1] v :=
  C127_support_negation true [[0, 5, 0]] (by simp) [1]

example : ([1, 0, -1] : List ℝ).sum = 0 ∧ logP true [[0, 5, 0]] [1] [1, 0, -1] = [1] ∧
    logP true [[2, 7, 2]] [1] [1, 0, -1] = [1] := by
  norm_num [logP, dot]

/-- C127.  With two features every sample is one of two points. -/
theorem C127_two {a b : ℝ} (h : a ≠ b) : standardizeSample [a, b] = [.fin 1, .fin (-1)] ∨
    standardizeSample [a, b] = [.fin (-1), .fin 1] := by
  have hv : npVar [a, b] ≠ 0 := by
    have : npVar [a, b] = ((a - b) / 2) ^ 2 := by simp [npVar]; ring
    rw [this]
    exact pow_ne_zero 2 (div_ne_zero (sub_ne_zero.2 h) two_ne_zero)
  obtain ⟨v, h1, h2, h3, h4⟩ := C127_sample hv
  obtain ⟨p, q, rfl⟩ := List.length_eq_two.1 h2
  simp only [List.sum_cons, List.sum_nil, add_zero, List.map_cons, List.map_nil, List.length_cons,
    List.length_nil] at h3 h4
  have hq : q = -p := by linarith
  subst hq
  have hp : (p - 1) * (p + 1) = 0 := by push_cast at h4; nlinarith
  rcases mul_eq_zero.1 hp with h | h
  · have : p = 1 := by linarith
    subst this; left; exact h1
  · have : p = -1 := by linarith
    subst this; right; rw [h1]; simp

example : standardizeSample [3, 8] = [.fin 1, .fin (-1)] ∨ standardizeSample [3, 8] = [.fin (-1), .fin 1] :=
  C127_two (by norm_num)

/-! ### C128 -/

/-- C128 (partial: the file is writable).  Row `s` of the swimmer data is image `s`, column after column. -/
theorem C128_image_partial {K : Type} {f : SwimmerFile K} (he : f.exists_ = true)
    (hw : f.writable = true) : ∃ A, loadSwimmer f = .ok A ∧
      ∀ r c s, r < 32 → c < 32 → s < 256 → A s (32 * c + r) = pixel f.Y r c s := by
  have h1 : loadSwimmer f = .ok fun row col => transposed 32 32 256 f.Y (row * 1024 + col) := by
    simp only [loadSwimmer, openRW, he, hw, Bool.and_self, if_true]
  have h2 : ∀ r c s, r < 32 → c < 32 → s < 256 →
      transposed 32 32 256 f.Y (s * 1024 + (32 * c + r)) = pixel f.Y r c s := by
    intro r c s hr hc hs
    have : ((s * 1024 + (32 * c + r)) % 32 * 32 + (s * 1024 + (32 * c + r)) / 32 % 32) * 256 +
        (s * 1024 + (32 * c + r)) / (32 * 32) = r * (32 * 256) + c * 256 + s := by omega
    unfold transposed pixel
    rw [this]
  exact ⟨_, h1, h2⟩

/-- An image file in which the value of a pixel is its position. -/
def demoFile : SwimmerFile Nat := ⟨true, true, id⟩

example : ∃ A, loadSwimmer demoFile = .ok A ∧ A 7 (32 * 3 + 2) = 2 * (32 * 256) + 3 * 256 + 7 :=
  (C128_image_partial (f := demoFile) rfl rfl).imp fun _ h =>
    ⟨h.1, h.2 2 3 7 (by decide) (by decide) (by decide)⟩

/-- C128.  Every entry of the result is one pixel: rows and columns of images and columns of the result
    correspond one to one. -/
theorem C128_pixels (col : Nat) (h : col < 1024) :
    ∃ r c, r < 32 ∧ c < 32 ∧ col = 32 * c + r ∧
      ∀ r' c', r' < 32 → c' < 32 → col = 32 * c' + r' → r' = r ∧ c' = c := by
  refine ⟨col % 32, col / 32, by omega, by omega, by omega, fun r' c' _ _ h => ?_⟩
  omega

example : ∃ r c, r < 32 ∧ c < 32 ∧ 100 = 32 * c + r :=
  (C128_pixels 100 (by decide)).imp fun _ h => h.imp fun _ h => ⟨h.1, h.2.1, h.2.2.1⟩

/-- C128.  The data are only read, but a file that may not be written to cannot be loaded. -/
theorem C128_readonly_negation {K : Type} (f : SwimmerFile K) (h : f.writable = false) :
    loadSwimmer f = .osError := by
  simp [loadSwimmer, openRW, h]

example : loadSwimmer { demoFile with writable := false } = .osError := C128_readonly_negation _ rfl

end Verif.Datasets
