import Verif.Spec.FeatureOrder
import Verif.Lemmas.Symmetry
import Verif.Lemmas.LogisticL1
import Mathlib.Tactic.FieldSimp
/-! Helper lemmas for the order of the features. -/
namespace Verif.FeatureOrder
open Finset Verif.Lbfgs Verif.Lbfgs.Spec Verif.Py

variable {n p N : Nat}

theorem block_bound {r : Nat} (hN : r * p ≤ N) {i : Nat} (h : i < r * p) (π : Equiv.Perm (Fin p)) :
    (π ⟨i / r, Nat.div_lt_of_lt_mul h⟩).val * r + i % r < r * p := by
  have hr : 0 < r := Nat.pos_of_ne_zero fun h0 => by subst h0; simp at h
  have h1 := (π ⟨i / r, Nat.div_lt_of_lt_mul h⟩).isLt
  have h2 := Nat.mod_lt i hr
  calc (π ⟨i / r, Nat.div_lt_of_lt_mul h⟩).val * r + i % r
      < (π ⟨i / r, Nat.div_lt_of_lt_mul h⟩).val * r + r := by omega
    _ = ((π ⟨i / r, Nat.div_lt_of_lt_mul h⟩).val + 1) * r := by ring
    _ ≤ p * r := Nat.mul_le_mul_right _ h1
    _ = r * p := Nat.mul_comm _ _

/-- The new place of an entry, when there are `r` entries per feature. -/
def blockFun (r : Nat) (hN : r * p ≤ N) (π : Equiv.Perm (Fin p)) (i : Fin N) : Fin N :=
  if h : i.val < r * p then
    ⟨(π ⟨i / r, Nat.div_lt_of_lt_mul h⟩).val * r + i % r, (block_bound hN h π).trans_le hN⟩
  else i

theorem blockFun_of_lt {r : Nat} (hN : r * p ≤ N) (π : Equiv.Perm (Fin p)) (i : Fin N) (h : i.val < r * p) :
    (blockFun r hN π i).val = (π ⟨i / r, Nat.div_lt_of_lt_mul h⟩).val * r + i % r := by
  unfold blockFun
  rw [dif_pos h]

theorem blockFun_of_not {r : Nat} (hN : r * p ≤ N) (π : Equiv.Perm (Fin p)) (i : Fin N) (h : ¬ i.val < r * p) :
    blockFun r hN π i = i := by
  unfold blockFun
  rw [dif_neg h]

theorem blockFun_lt {r : Nat} (hN : r * p ≤ N) (π : Equiv.Perm (Fin p)) (i : Fin N) :
    (blockFun r hN π i).val < r * p ↔ i.val < r * p := by
  by_cases h : i.val < r * p
  · rw [blockFun_of_lt hN π i h]
    exact ⟨fun _ => h, fun _ => block_bound hN h π⟩
  · rw [blockFun_of_not hN π i h]

theorem blockFun_inv {r : Nat} (hN : r * p ≤ N) (π τ : Equiv.Perm (Fin p)) (hτ : ∀ j, τ (π j) = j) (i : Fin N) :
    blockFun r hN τ (blockFun r hN π i) = i := by
  by_cases h : i.val < r * p
  · have hr : 0 < r := Nat.pos_of_ne_zero fun h0 => by subst h0; simp at h
    have h2 := blockFun_of_lt hN π i h
    apply Fin.ext
    rw [blockFun_of_lt hN τ _ ((blockFun_lt hN π i).2 h)]
    have h3 : (blockFun r hN π i).val / r = (π ⟨i / r, Nat.div_lt_of_lt_mul h⟩).val := by
      rw [h2, Nat.mul_comm, Nat.mul_add_div hr, Nat.div_eq_of_lt (Nat.mod_lt _ hr), Nat.add_zero]
    have h4 : (blockFun r hN π i).val % r = i % r := by
      rw [h2, Nat.mul_comm, Nat.mul_add_mod, Nat.mod_mod]
    have h5 : (⟨(blockFun r hN π i).val / r, Nat.div_lt_of_lt_mul ((blockFun_lt hN π i).2 h)⟩ : Fin p) =
        π ⟨i / r, Nat.div_lt_of_lt_mul h⟩ := Fin.ext h3
    rw [h4, h5, hτ]
    show i.val / r * r + i.val % r = i.val
    rw [Nat.mul_comm]
    exact Nat.div_add_mod _ _
  · rw [blockFun_of_not hN π i h, blockFun_of_not hN τ i h]

/-- The order of the entries. -/
def blockPerm (r : Nat) (hN : r * p ≤ N) (π : Equiv.Perm (Fin p)) : Equiv.Perm (Fin N) where
  toFun := blockFun r hN π
  invFun := blockFun r hN π.symm
  left_inv := blockFun_inv hN π π.symm fun j => by simp
  right_inv := blockFun_inv hN π.symm π fun j => by simp

/-- The signs of the entries. -/
def blockSign (r : Nat) (s : Fin p → ℝ) (i : Fin N) : ℝ :=
  if h : i.val < r * p then s ⟨i / r, Nat.div_lt_of_lt_mul h⟩ else 1

theorem blockSign_pm (r : Nat) (s : Fin p → ℝ) (hs : ∀ j, s j = 1 ∨ s j = -1) (i : Fin N) :
    blockSign r s i = 1 ∨ blockSign r s i = -1 := by
  unfold blockSign
  split_ifs
  · exact hs _
  · exact .inl rfl

theorem block_penalised {r : Nat} (hN : r * p ≤ N) (π : Equiv.Perm (Fin p)) (i : Fin N) :
    Penalised 0 ((r * p : Nat) : Int) i ↔ Penalised 0 ((r * p : Nat) : Int) (blockPerm r hN π i) := by
  have := blockFun_lt hN π i
  unfold Penalised
  show _ ↔ _ ≤ (((blockFun r hN π i).val : Nat) : Int) ∧ (((blockFun r hN π i).val : Nat) : Int) < _
  omega

/-! ### Poisson -/
section Poisson
open Verif.Poisson Verif.Scaling

theorem size_le (a : LArgs) : 1 * p ≤ a.size p := by
  unfold LArgs.size; omega

/-- The vector in the new order. -/
noncomputable def flat (a : LArgs) (π : Equiv.Perm (Fin p)) (s : Fin p → ℝ) (x : Fin (a.size p) → ℝ) : Fin (a.size p) → ℝ :=
  reorder (blockPerm 1 (size_le a) π) (blockSign 1 s) x

theorem flat_lt (a : LArgs) (π : Equiv.Perm (Fin p)) (s : Fin p → ℝ) (x : Fin (a.size p) → ℝ) (i : Fin (a.size p))
    (h : i.val < p) : flat a π s x i = s ⟨i, h⟩ * coefPart a x (π ⟨i, h⟩) := by
  have h' : i.val < 1 * p := by omega
  unfold flat reorder blockSign coefPart
  rw [dif_pos h']
  congr 1
  · congr 1
    exact Fin.ext (Nat.div_one _)
  · congr 1
    apply Fin.ext
    show (blockFun 1 (size_le a) π i).val = _
    rw [blockFun_of_lt _ _ _ h']
    simp only [Nat.div_one, Nat.mod_one, Nat.mul_one, Nat.add_zero]

theorem flat_not (a : LArgs) (π : Equiv.Perm (Fin p)) (s : Fin p → ℝ) (x : Fin (a.size p) → ℝ) (i : Fin (a.size p))
    (h : ¬ i.val < p) : flat a π s x i = x i := by
  have h' : ¬ i.val < 1 * p := by omega
  unfold flat reorder blockSign
  rw [dif_neg h', one_mul]
  congr 1
  exact blockFun_of_not (size_le a) _ _ h'

theorem coefPart_flat (a : LArgs) (π : Equiv.Perm (Fin p)) (s : Fin p → ℝ) (x : Fin (a.size p) → ℝ) :
    coefPart a (flat a π s x) = reorder π s (coefPart a x) := by
  funext j
  exact flat_lt a π s x ⟨j, _⟩ j.isLt

theorem interceptPart_flat (a : LArgs) (π : Equiv.Perm (Fin p)) (s : Fin p → ℝ) (x : Fin (a.size p) → ℝ) :
    interceptPart a (flat a π s x) = interceptPart a x := by
  unfold interceptPart
  split_ifs
  · rw [flat_not a π s x _ (lt_irrefl p)]
  · rfl

theorem joinParts_flat (a : LArgs) (π : Equiv.Perm (Fin p)) (s : Fin p → ℝ) (c : Fin p → ℝ) (b : ℝ) :
    joinParts a (reorder π s c) b = flat a π s (joinParts a c b) := by
  funext i
  by_cases h : i.val < p
  · rw [flat_lt a π s _ i h]
    simp [joinParts, coefPart, reorder, h]
  · rw [flat_not a π s _ i h]
    simp [joinParts, h]

theorem mul_self_sign {s : Fin p → ℝ} (hs : ∀ j, s j = 1 ∨ s j = -1) (j : Fin p) : s j * s j = 1 := by
  rcases hs j with h | h <;> rw [h] <;> norm_num

theorem sum_reorder {π : Equiv.Perm (Fin p)} {s : Fin p → ℝ} (hs : ∀ j, s j = 1 ∨ s j = -1) (x y : Fin p → ℝ) :
    ∑ j, reorder π s x j * reorder π s y j = ∑ j, x j * y j :=
  (reorder_rotation π s hs).inner x y

theorem lossGrad_reorder {π : Equiv.Perm (Fin p)} {s : Fin p → ℝ} (hs : ∀ j, s j = 1 ∨ s j = -1)
    (X : Fin n → Fin p → ℝ) (y sw : Fin n → ℝ) (l2 : ℝ) (c : Fin p → ℝ) (b : Option ℝ) :
    lossGrad (fun i => reorder π s (X i)) y sw l2 (reorder π s c) b =
      ((lossGrad X y sw l2 c b).1, reorder π s (lossGrad X y sw l2 c b).2.1, (lossGrad X y sw l2 c b).2.2) := by
  have h1 : ∀ i, Poisson.dot (reorder π s (X i)) (reorder π s c) = Poisson.dot (X i) c := fun i => sum_reorder hs _ _
  unfold lossGrad
  simp only [h1, sum_reorder hs]
  refine Prod.ext rfl (Prod.ext ?_ rfl)
  funext j
  show -(∑ i, s j * X i (π j) * _) / n + l2 * (s j * c (π j)) = s j * (-(∑ i, X i (π j) * _) / n + l2 * c (π j))
  simp only [mul_assoc, ← mul_sum]
  ring

theorem mean_mul (f : Fin n → ℝ) (t : ℝ) : Utils.mean (fun i => t * f i) = t * Utils.mean f := by
  unfold Utils.mean
  rw [← mul_sum, mul_div_assoc]

theorem scaler_reorder {π : Equiv.Perm (Fin p)} {s : Fin p → ℝ} (hs : ∀ j, s j = 1 ∨ s j = -1) (w : Bool)
    (X : Fin n → Fin p → ℝ) :
    (standardScaler w fun i => reorder π s (X i)).mean = reorder π s (standardScaler w X).mean ∧
    (standardScaler w fun i => reorder π s (X i)).scale = fun j => (standardScaler w X).scale (π j) := by
  constructor
  · funext j
    exact mean_mul (fun i => X i (π j)) (s j)
  · funext j
    have h1 : (Utils.mean fun i => s j * X i (π j)) = s j * Utils.mean fun i => X i (π j) :=
      mean_mul (fun i => X i (π j)) (s j)
    show (if Real.sqrt (Utils.mean fun i => (s j * X i (π j) - Utils.mean fun i => s j * X i (π j)) ^ 2) = 0 then 1
      else Real.sqrt (Utils.mean fun i => (s j * X i (π j) - Utils.mean fun i => s j * X i (π j)) ^ 2)) = _
    have h2 : (fun i => (s j * X i (π j) - Utils.mean fun i => s j * X i (π j)) ^ 2) =
        fun i => (X i (π j) - Utils.mean fun i => X i (π j)) ^ 2 := by
      funext i
      rw [h1, ← mul_sub, mul_pow, sq (s j), mul_self_sign hs, one_mul]
    rw [h2]
    rfl

theorem preX_reorder {π : Equiv.Perm (Fin p)} {s : Fin p → ℝ} (hs : ∀ j, s j = 1 ∨ s j = -1) (a : LArgs)
    (X : Fin n → Fin p → ℝ) : preX a (fun i => reorder π s (X i)) = fun i => reorder π s (preX a X i) := by
  unfold preX
  split_ifs
  · funext i j
    simp only [Scaler.apply, (scaler_reorder hs true X).1, (scaler_reorder hs true X).2]
    show (if true = true then s j * X i (π j) - s j * _ else _) / _ = s j * ((if true = true then _ else _) / _)
    rw [if_pos rfl, if_pos rfl]
    ring
  · rfl

theorem same_poisson {π : Equiv.Perm (Fin p)} {s : Fin p → ℝ} (hs : ∀ j, s j = 1 ∨ s j = -1) (a : LArgs)
    (X : Fin n → Fin p → ℝ) (y sw : Fin n → ℝ) :
    SameProblem (flat a π s) (poisCallables a (preX a X) y sw)
      (poisCallables a (preX a fun i => reorder π s (X i)) y sw) := by
  refine ⟨rfl, fun x => ?_, fun _ _ _ _ _ _ _ _ _ => rfl⟩
  simp only [poisCallables, flatLoss, preX_reorder hs, coefPart_flat, interceptPart_flat, lossGrad_reorder hs,
    joinParts_flat]

theorem poisStart_reorder {π : Equiv.Perm (Fin p)} {s : Fin p → ℝ} (hs : ∀ j, s j = 1 ∨ s j = -1) (a : LArgs)
    (X : Fin n → Fin p → ℝ) (o : PObj p) :
    poisStart a (fun i => reorder π s (X i)) (FeatureOrder.poisson π s o) = (poisStart a X o).map (flat a π s) := by
  have h0 : (fun _ => 0 : Fin p → ℝ) = reorder π s fun _ => 0 := by funext j; simp [reorder]
  have h1 : ∀ c : Fin p → ℝ, (fun j => reorder π s c j * (standardScaler true fun i => reorder π s (X i)).scale j) =
      reorder π s fun j => c j * (standardScaler true X).scale j := by
    intro c
    funext j
    rw [(scaler_reorder hs true X).2]
    simp only [reorder]; ring
  have jz : ∀ b, joinParts a (fun _ => 0 : Fin p → ℝ) b = flat a π s (joinParts a (fun _ => 0) b) := by
    intro b
    rw [← joinParts_flat, ← h0]
  have j1 : ∀ (c : Fin p → ℝ) b,
      joinParts a (fun j => reorder π s c j * (standardScaler true fun i => reorder π s (X i)).scale j) b =
        flat a π s (joinParts a (fun j => c j * (standardScaler true X).scale j) b) := by
    intro c b
    rw [h1, joinParts_flat]
  rcases o with ⟨oc, ob⟩
  cases hw : a.warm <;> cases hstd : a.std <;> cases hfi : a.fi <;> rcases oc with _ | c <;> rcases ob with _ | _ | b <;>
    simp only [poisStart, FeatureOrder.poisson, hw, hstd, hfi, Option.map_none, Option.map_some, if_true,
      Bool.false_eq_true, if_false, Bool.and_self, Bool.and_true, Bool.and_false, Bool.true_and, Bool.false_and] <;>
    first | rfl | rw [← jz] | rw [← j1] | rw [← joinParts_flat]

theorem poisPost_reorder {π : Equiv.Perm (Fin p)} {s : Fin p → ℝ} (hs : ∀ j, s j = 1 ∨ s j = -1) (std fi : Bool)
    (X : Fin n → Fin p → ℝ) (c : Fin p → ℝ) (b : WithBot ℝ) :
    poisPost std fi (standardScaler true fun i => reorder π s (X i)) (reorder π s c) b =
      (reorder π s (poisPost std fi (standardScaler true X) c b).1, (poisPost std fi (standardScaler true X) c b).2) := by
  unfold poisPost
  split_ifs
  · simp only [(scaler_reorder hs true X).1, (scaler_reorder hs true X).2]
    have e : ∑ j, reorder π s (standardScaler true X).mean j * reorder π s c j / (standardScaler true X).scale (π j) =
        ∑ j, (standardScaler true X).mean j * c j / (standardScaler true X).scale j := by
      rw [← Equiv.sum_comp π (fun j => (standardScaler true X).mean j * c j / (standardScaler true X).scale j)]
      refine sum_congr rfl fun j _ => ?_
      have := mul_self_sign hs j
      simp only [reorder]
      rw [show s j * (standardScaler true X).mean (π j) * (s j * c (π j)) =
        s j * s j * ((standardScaler true X).mean (π j) * c (π j)) by ring, this, one_mul]
    rw [e]
    refine Prod.ext ?_ rfl
    funext j
    simp only [reorder]; ring
  · simp only [(scaler_reorder hs true X).2]
    refine Prod.ext ?_ rfl
    funext j
    simp only [reorder]; ring
  · rfl

theorem poisStore_reorder {π : Equiv.Perm (Fin p)} {s : Fin p → ℝ} (hs : ∀ j, s j = 1 ∨ s j = -1) (a : LArgs)
    (X : Fin n → Fin p → ℝ) (o : PObj p) (x : Fin (a.size p) → ℝ) :
    poisStore a (fun i => reorder π s (X i)) (FeatureOrder.poisson π s o) (flat a π s x) =
      FeatureOrder.poisson π s (poisStore a X o x) := by
  unfold poisStore
  rw [interceptPart_flat, coefPart_flat]
  cases interceptPart a x with
  | none => simp only [poisPost_reorder hs]; rfl
  | some b => simp only [poisPost_reorder hs]; rfl

theorem pois_compat {π : Equiv.Perm (Fin p)} {s : Fin p → ℝ} (hs : ∀ j, s j = 1 ∨ s j = -1) (a : LArgs) :
    ∀ q, fminPar (poisArgs a p) = .ok q → Compat (flat a π s) (fillEnd (a.size p) q) := by
  intro q hq
  obtain ⟨h0, ls, rfl⟩ := fminPar_form hq
  refine reorder_compat _ _ (blockSign_pm 1 s hs) _ ?_ (fun _ => ?_)
  · rw [fillEnd_eq]; exact h0
  · rw [fillEnd_eq]
    have e : (if (poisArgs a p).par.stop < 0 then ((a.size p : Nat) : Int) else (poisArgs a p).par.stop)
        = ((1 * p : Nat) : Int) := by
      show (if ((p : Nat) : Int) < 0 then _ else ((p : Nat) : Int)) = _
      rw [if_neg (by omega)]; simp
    intro i
    show Penalised 0 (if (poisArgs a p).par.stop < 0 then ((a.size p : Nat) : Int) else (poisArgs a p).par.stop) i ↔
      Penalised 0 (if (poisArgs a p).par.stop < 0 then ((a.size p : Nat) : Int) else (poisArgs a p).par.stop) _
    rw [e]
    exact block_penalised (size_le a) π i

end Poisson

/-! ### L1-penalised logistic regression -/
section Logistic
open Verif.Logistic

theorem pos_eq {a : PathArgs} {c j : Nat} (hc : c < a.rows) : pos a c j = j * a.rows + c := by
  unfold pos
  rw [rows_eq] at hc ⊢
  cases hm : a.multi with
  | false =>
    rw [hm] at hc
    have : c = 0 := by simpa using hc
    subst this
    simp
  | true => simp

theorem coefSize_le (a : PathArgs) : a.rows * a.p ≤ a.size := by
  unfold PathArgs.size PathArgs.cols
  exact Nat.mul_le_mul_left _ (Nat.le_add_right _ _)

/-- The vector in the new order. -/
noncomputable def l1Flat (a : PathArgs) (π : Equiv.Perm (Fin a.p)) (s : Fin a.p → ℝ) (x : Fin a.size → ℝ) :
    Fin a.size → ℝ :=
  reorder (blockPerm a.rows (coefSize_le a) π) (blockSign a.rows s) x

theorem column_lt (π : Equiv.Perm (Fin p)) {j : Nat} : column π j < p ↔ j < p := by
  unfold column
  split_ifs with h
  · exact ⟨fun _ => h, fun _ => (π ⟨j, h⟩).isLt⟩
  · rfl

theorem column_cols {a : PathArgs} (π : Equiv.Perm (Fin a.p)) {j : Nat} (hj : j < a.cols) : column π j < a.cols := by
  by_cases h : j < a.p
  · exact ((column_lt π).2 h).trans_le (Nat.le_add_right _ _)
  · unfold column
    rw [dif_neg h]; exact hj

theorem l1Flat_pos {a : PathArgs} (π : Equiv.Perm (Fin a.p)) (s : Fin a.p → ℝ) (x : Fin a.size → ℝ) {c j : Nat}
    (hc : c < a.rows) (hj : j < a.cols) :
    ofVec (l1Flat a π s x) (pos a c j) = colSign s j * ofVec x (pos a c (column π j)) := by
  have h1 := pos_lt hc hj
  have h2 := pos_lt hc (column_cols π hj)
  have hr : 0 < a.rows := by omega
  rw [ofVec, dif_pos h1, ofVec, dif_pos h2]
  unfold l1Flat reorder
  have hlt : pos a c j < a.rows * a.p ↔ j < a.p := pos_lt_coef hc
  have hdiv : pos a c j / a.rows = j := by
    rw [pos_eq hc, Nat.mul_comm, Nat.mul_add_div hr, Nat.div_eq_of_lt hc, Nat.add_zero]
  have hmod : pos a c j % a.rows = c := by
    rw [pos_eq hc, Nat.mul_comm, Nat.mul_add_mod, Nat.mod_eq_of_lt hc]
  congr 1
  · unfold blockSign colSign
    by_cases h : j < a.p
    · rw [dif_pos (hlt.2 h), dif_pos h]
      congr 1
      exact Fin.ext hdiv
    · rw [dif_neg (fun h' => h (hlt.1 h')), dif_neg h]
  · congr 1
    apply Fin.ext
    show (blockFun a.rows (coefSize_le a) π ⟨pos a c j, h1⟩).val = pos a c (column π j)
    by_cases h : j < a.p
    · rw [blockFun_of_lt _ _ _ (hlt.2 h), pos_eq (j := column π j) hc]
      unfold column
      rw [dif_pos h]
      simp only [hdiv, hmod]
    · rw [blockFun_of_not _ _ _ (fun h' => h (hlt.1 h'))]
      unfold column
      rw [dif_neg h]

theorem binLossGrad_reorder {π : Equiv.Perm (Fin p)} {s : Fin p → ℝ} (hs : ∀ j, s j = 1 ∨ s j = -1)
    (X : Fin n → Fin p → ℝ) (y : Fin n → ℝ) (mask : Option (Fin p → ℝ)) (sw : Fin n → ℝ) (w : Fin p → ℝ)
    (b : Option ℝ) :
    binLossGrad (fun i => reorder π s (X i)) y 0 (mask.map fun m j => m (π j)) sw (reorder π s w) b =
      ((binLossGrad X y 0 mask sw w b).1, reorder π s (binLossGrad X y 0 mask sw w b).2.1,
        (binLossGrad X y 0 mask sw w b).2.2) := by
  have hm : ∀ v, applyMask (mask.map fun m j => m (π j)) (reorder π s v) = reorder π s (applyMask mask v) := by
    intro v
    rcases mask with _ | m
    · rfl
    · funext j
      show reorder π s v j * m (π j) = s j * (v (π j) * m (π j))
      simp only [reorder]; ring
  unfold binLossGrad
  simp only [hm, sum_reorder hs, zero_mul, mul_zero, add_zero]
  refine Prod.ext rfl (Prod.ext ?_ rfl)
  show applyMask _ _ = reorder π s (applyMask mask _)
  rw [← hm]
  congr 1
  funext j
  simp only [reorder, mul_assoc, ← mul_sum]
  rw [mul_div_assoc]

theorem multiLossGrad_reorder {k : Nat} {π : Equiv.Perm (Fin p)} {s : Fin p → ℝ} (hs : ∀ j, s j = 1 ∨ s j = -1)
    (X : Fin n → Fin p → ℝ) (Y : Fin n → Fin k → ℝ) (mask : Option (Fin k → Fin p → ℝ)) (sw : Fin n → ℝ)
    (w : Fin k → Fin p → ℝ) (b : Option (Fin k → ℝ)) :
    multiLossGrad (fun i => reorder π s (X i)) Y 0 (mask.map fun m c j => m c (π j)) sw (fun c => reorder π s (w c)) b =
      ((multiLossGrad X Y 0 mask sw w b).1, fun c => reorder π s ((multiLossGrad X Y 0 mask sw w b).2.1 c),
        (multiLossGrad X Y 0 mask sw w b).2.2) := by
  have hm : ∀ v : Fin k → Fin p → ℝ, applyMaskM (mask.map fun m c j => m c (π j)) (fun c => reorder π s (v c)) =
      fun c => reorder π s (applyMaskM mask v c) := by
    intro v
    rcases mask with _ | m
    · rfl
    · funext c j
      show reorder π s (v c) j * m c (π j) = s j * (v c (π j) * m c (π j))
      simp only [reorder]; ring
  unfold multiLossGrad
  simp only [hm, sum_reorder hs, zero_mul, mul_zero, add_zero]
  refine Prod.ext rfl (Prod.ext ?_ rfl)
  show applyMaskM _ _ = fun c => reorder π s (applyMaskM mask _ c)
  rw [← hm]
  congr 1
  funext c j
  simp only [reorder]
  rw [← mul_div_assoc, mul_sum]
  congr 1
  exact sum_congr rfl fun i _ => by ring

theorem table_fin (π : Equiv.Perm (Fin p)) (s : Fin p → ℝ) {ι : Type} (M : ι → Nat → ℝ) (i : ι) :
    (fun j : Fin p => table π s M i j) = reorder π s fun j => M i j := by
  funext j
  simp [table, colSign, column, reorder]

theorem l1Func_reorder {a : PathArgs} {π : Equiv.Perm (Fin a.p)} {s : Fin a.p → ℝ} (hs : ∀ j, s j = 1 ∨ s j = -1)
    (d : L1Data n) (x x' : Nat → ℝ)
    (hx : ∀ c < a.rows, ∀ j < a.cols, x' (pos a c j) = colSign s j * x (pos a c (column π j))) :
    (l1Func (settings a π s) (data d π s) x').1 = (l1Func a d x).1 ∧
    ∀ c < a.rows, ∀ j < a.cols, (l1Func (settings a π s) (data d π s) x').2 (pos a c j) =
      colSign s j * (l1Func a d x).2 (pos a c (column π j)) := by
  have hxp : ∀ c < a.rows, (fun j : Fin a.p => x' (pos a c j)) = reorder π s fun j => x (pos a c j) := by
    intro c hc
    rw [← table_fin π s (fun c j => x (pos a c j)) c]
    funext j
    exact hx c hc j (j.isLt.trans_le (Nat.le_add_right _ _))
  have hb : ∀ c < a.rows, interceptOf (settings a π s) x' c = interceptOf a x c := by
    intro c hc
    show (if a.fi then x' (pos a c a.p) else 0) = if a.fi then x (pos a c a.p) else 0
    split_ifs with hf
    · rw [hx c hc a.p (by simp [PathArgs.cols, hf])]
      simp [colSign, column]
    · rfl
  cases hm : a.multi with
  | false =>
    have hr : a.rows = 1 := by simp [rows_eq, hm]
    have hp : ∀ c j, pos a c j = j := fun c j => by simp [pos, hm]
    have h1 := l1Func_bin (a := settings a π s) (data d π s) hm x'
    have h2 := l1Func_bin (a := a) d hm x
    have e : binLossGrad (fun i (j : Fin a.p) => (data d π s).X i j) (data d π s).y 0
        ((settings a π s).mask.map fun m (j : Fin a.p) => m 0 j) (data d π s).sw (fun j : Fin a.p => x' j)
        (some (interceptOf (settings a π s) x' 0)) =
        binLossGrad (fun i => reorder π s fun j => d.X i j) d.y 0
          ((a.mask.map fun m (j : Fin a.p) => m 0 j).map fun m j => m (π j)) d.sw
          (reorder π s fun j => x j) (some (interceptOf a x 0)) := by
      have e1 : (fun i (j : Fin a.p) => (data d π s).X i j) = fun i => reorder π s fun j => d.X i j :=
        funext fun i => table_fin π s d.X i
      have e2 : ((settings a π s).mask.map fun m (j : Fin a.p) => m 0 j) =
          (a.mask.map fun m (j : Fin a.p) => m 0 j).map fun m j => m (π j) := by
        show (a.mask.map _).map _ = _
        rcases a.mask with _ | m
        · rfl
        · simp [column]
      have e3 := hxp 0 (by omega)
      simp only [hp] at e3
      rw [e1, e2, e3, hb 0 (by omega)]
      rfl
    rw [binLossGrad_reorder hs] at e
    simp only at h1 h2
    refine ⟨?_, fun c hc j hj => ?_⟩
    · rw [h2.1, h1.1]
      have := congrArg Prod.fst e
      exact this
    · rw [hp, hp]
      by_cases h : j < a.p
      · have h3 := h1.2.1 ⟨j, h⟩
        have h4 := h2.2.1 (π ⟨j, h⟩)
        rw [show column π j = (π ⟨j, h⟩ : Nat) by simp [column, h], show colSign s j = s ⟨j, h⟩ by simp [colSign, h], h4]
        refine h3.trans ?_
        exact congrFun (congrArg (fun g : ℝ × (Fin a.p → ℝ) × Option ℝ => g.2.1) e) ⟨j, h⟩
      · have hf : a.fi = true := by
          unfold PathArgs.cols at hj
          by_contra hf
          rw [if_neg hf] at hj
          omega
        have hjp : j = a.p := by
          unfold PathArgs.cols at hj
          rw [if_pos hf] at hj
          omega
        subst hjp
        rw [show column π a.p = a.p by simp [column], show colSign s a.p = 1 by simp [colSign], one_mul, h2.2.2 hf]
        refine (h1.2.2 hf).trans ?_
        have := congrArg (fun g : ℝ × (Fin a.p → ℝ) × Option ℝ => g.2.2.getD 0) e
        exact this
  | true =>
    have hr : a.rows = a.k := by simp [rows_eq, hm]
    have h1 := l1Func_multi (a := settings a π s) (data d π s) hm x'
    have h2 := l1Func_multi (a := a) d hm x
    have e : multiLossGrad (fun i (j : Fin a.p) => (data d π s).X i j) (fun i (c : Fin a.k) => d.Y i c) 0
        ((settings a π s).mask.map fun m (c : Fin a.k) (j : Fin a.p) => m c j) (data d π s).sw
        (fun (c : Fin a.k) (j : Fin a.p) => x' (pos a c j))
        (some fun c : Fin a.k => interceptOf (settings a π s) x' c) =
        multiLossGrad (fun i => reorder π s fun j => d.X i j) (fun i (c : Fin a.k) => d.Y i c) 0
          ((a.mask.map fun m (c : Fin a.k) (j : Fin a.p) => m c j).map fun m c j => m c (π j)) d.sw
          (fun c => reorder π s fun j => x (pos a c j)) (some fun c : Fin a.k => interceptOf a x c) := by
      have e1 : (fun i (j : Fin a.p) => (data d π s).X i j) = fun i => reorder π s fun j => d.X i j :=
        funext fun i => table_fin π s d.X i
      have e2 : ((settings a π s).mask.map fun m (c : Fin a.k) (j : Fin a.p) => m c j) =
          (a.mask.map fun m (c : Fin a.k) (j : Fin a.p) => m c j).map fun m c j => m c (π j) := by
        show (a.mask.map _).map _ = _
        rcases a.mask with _ | m
        · rfl
        · simp [column]
      have e3 : (fun (c : Fin a.k) (j : Fin a.p) => x' (pos a c j)) = fun c : Fin a.k => reorder π s fun j => x (pos a c j) :=
        funext fun c => hxp c (by rw [hr]; exact c.isLt)
      have e4 : (fun c : Fin a.k => interceptOf (settings a π s) x' c) = fun c : Fin a.k => interceptOf a x c :=
        funext fun c => hb c (by rw [hr]; exact c.isLt)
      rw [e1, e2, e3, e4]
      rfl
    rw [multiLossGrad_reorder hs] at e
    simp only at h1 h2
    refine ⟨?_, fun c hc j hj => ?_⟩
    · rw [h2.1, h1.1]
      have := congrArg Prod.fst e
      exact this
    · rw [hr] at hc
      by_cases h : j < a.p
      · have h3 := h1.2.1 ⟨c, hc⟩ ⟨j, h⟩
        have h4 := h2.2.1 ⟨c, hc⟩ (π ⟨j, h⟩)
        rw [show column π j = (π ⟨j, h⟩ : Nat) by simp [column, h], show colSign s j = s ⟨j, h⟩ by simp [colSign, h]]
        refine h3.trans ?_
        refine (congrFun (congrFun (congrArg (fun g : ℝ × (Fin a.k → Fin a.p → ℝ) × Option (Fin a.k → ℝ) => g.2.1) e)
          ⟨c, hc⟩) ⟨j, h⟩).trans ?_
        show s ⟨j, h⟩ * _ = s ⟨j, h⟩ * _
        rw [h4]
      · have hf : a.fi = true := by
          unfold PathArgs.cols at hj
          by_contra hf
          rw [if_neg hf] at hj
          omega
        have hjp : j = a.p := by
          unfold PathArgs.cols at hj
          rw [if_pos hf] at hj
          omega
        subst hjp
        rw [show column π a.p = a.p by simp [column], show colSign s a.p = 1 by simp [colSign], one_mul,
          h2.2.2 hf ⟨c, hc⟩]
        refine (h1.2.2 hf ⟨c, hc⟩).trans ?_
        exact congrFun (congrArg (fun g : ℝ × (Fin a.k → Fin a.p → ℝ) × Option (Fin a.k → ℝ) =>
          g.2.2.getD fun _ => 0) e) ⟨c, hc⟩

theorem vec_ext {a : PathArgs} {x y : Fin a.size → ℝ}
    (h : ∀ c < a.rows, ∀ j < a.cols, ofVec x (pos a c j) = ofVec y (pos a c j)) : x = y := by
  funext i
  obtain ⟨c, j, hc, hj, e⟩ := pos_surj i.isLt
  have := h c hc j hj
  rw [← e, ofVec, dif_pos i.isLt, ofVec, dif_pos i.isLt] at this
  exact this

/-- The entries that `zero_coef` looks at when there is an intercept: those of the features. -/
theorem zero_iff {a : PathArgs} (hf : a.fi = true) (hr : 0 < a.rows) (x : Fin a.size → ℝ) :
    (∀ v ∈ zeroCoefPart a.multi a.k (List.ofFn x), v = 0) ↔ ∀ c < a.rows, ∀ j < a.p, ofVec x (pos a c j) = 0 := by
  have hpart : zeroCoefPart a.multi a.k (List.ofFn x) = (List.ofFn x).take (a.rows * a.p) := by
    have hsz : a.size = a.rows * a.p + a.rows := by
      unfold PathArgs.size PathArgs.cols
      rw [if_pos hf]; ring
    unfold zeroCoefPart
    rw [rows_eq] at hsz ⊢
    cases hm : a.multi with
    | false =>
      rw [hm] at hsz
      simp only [Bool.false_eq_true, if_false] at hsz ⊢
      rw [List.dropLast_eq_take, List.length_ofFn]
      congr 1
      omega
    | true =>
      rw [hm] at hsz
      simp only [if_true] at hsz ⊢
      rw [List.length_ofFn]
      congr 1
      omega
  rw [hpart]
  constructor
  · intro h c hc j hj
    have h1 := pos_lt hc (lt_cols hj)
    have h2 : pos a c j < a.rows * a.p := (pos_lt_coef hc).2 hj
    rw [ofVec, dif_pos h1]
    refine h _ ?_
    rw [List.mem_take_iff_getElem]
    exact ⟨pos a c j, by rw [List.length_ofFn]; omega, by simp⟩
  · intro h v hv
    rw [List.mem_take_iff_getElem] at hv
    obtain ⟨i, hi, rfl⟩ := hv
    rw [List.length_ofFn] at hi
    obtain ⟨c, j, hc, hj, e⟩ := pos_surj (a := a) (i := i) (by omega)
    have hj' : j < a.p := (pos_lt_coef hc).1 (by rw [← e]; unfold PathArgs.coefSize; omega)
    have := h c hc j hj'
    rw [← e, ofVec, dif_pos (by omega)] at this
    simpa using this

theorem l1_same {a : PathArgs} {π : Equiv.Perm (Fin a.p)} {s : Fin a.p → ℝ} (hs : ∀ j, s j = 1 ∨ s j = -1)
    (hf : a.fi = true) (d : L1Data n) :
    SameProblem (l1Flat a π s) (l1Callables a d) (l1Callables (settings a π s) (data d π s)) := by
  have hsgn : ∀ j, colSign s j ≠ 0 := by
    intro j
    unfold colSign
    split_ifs with h
    · rcases hs ⟨j, h⟩ with h | h <;> rw [h] <;> norm_num
    · norm_num
  refine ⟨rfl, fun x => ?_, fun seen x g f xn gn st k ls => ?_⟩
  · have hx : ∀ c < a.rows, ∀ j < a.cols, ofVec (l1Flat a π s x) (pos a c j) =
        colSign s j * ofVec x (pos a c (column π j)) := fun c hc j hj => l1Flat_pos π s x hc hj
    have h := l1Func_reorder hs d _ _ hx
    refine Prod.ext ?_ ?_
    · exact congrArg Except.ok h.1
    · refine vec_ext fun c hc j hj => ?_
      rw [l1Flat_pos π s _ hc hj]
      have h1 := pos_lt hc hj
      have h2 := pos_lt hc (column_cols π hj)
      rw [ofVec, dif_pos h1, ofVec, dif_pos h2]
      exact h.2 c hc j hj
  · have e : zeroCoef a.multi a.k seen (List.ofFn (l1Flat a π s x)) = zeroCoef a.multi a.k seen (List.ofFn x) := by
      rcases Nat.eq_zero_or_pos a.rows with h0 | hr
      · have hxx : l1Flat a π s x = x := by
          funext i
          exact absurd i.isLt (by unfold PathArgs.size; simp [h0])
        rw [hxx]
      have hz : (∀ v ∈ zeroCoefPart a.multi a.k (List.ofFn (l1Flat a π s x)), v = 0) ↔
          ∀ v ∈ zeroCoefPart a.multi a.k (List.ofFn x), v = 0 := by
        rw [zero_iff hf hr, zero_iff hf hr]
        constructor
        · intro h c hc j hj
          obtain ⟨j', rfl⟩ : ∃ j' : Fin a.p, j = π j' := ⟨π.symm ⟨j, hj⟩, by simp⟩
          have := h c hc j' j'.isLt
          rw [l1Flat_pos π s x hc (lt_cols j'.isLt)] at this
          have := (mul_eq_zero.1 this).resolve_left (hsgn _)
          simpa [column] using this
        · intro h c hc j hj
          rw [l1Flat_pos π s x hc (lt_cols hj), h c hc _ ((column_lt π).2 hj), mul_zero]
      unfold zeroCoef
      simp only [hz]
    show ((Except.ok (if (zeroCoef a.multi a.k seen (List.ofFn (l1Flat a π s x))).2 then some (-2048) else none),
      (zeroCoef a.multi a.k seen (List.ofFn (l1Flat a π s x))).1) : Except PyErr (Option Int) × Nat) =
      (.ok (if (zeroCoef a.multi a.k seen (List.ofFn x)).2 then some (-2048) else none),
        (zeroCoef a.multi a.k seen (List.ofFn x)).1)
    rw [e]

theorem l1Start_reorder {a : PathArgs} {π : Equiv.Perm (Fin a.p)} {s : Fin a.p → ℝ}
    (hf : a.fi = true) (hw : ∀ w, a.warm = some w → a.p ≤ w.1) :
    (fun i : Fin a.size => l1Start (settings a π s) i) = l1Flat a π s fun i => l1Start a i := by
  refine vec_ext fun c hc j hj => ?_
  have h1 := pos_lt hc hj
  have h2 := pos_lt hc (column_cols π hj)
  rw [l1Flat_pos π s _ hc hj, ofVec, dif_pos h1, ofVec, dif_pos h2]
  show l1Start (settings a π s) (pos (settings a π s) c j) = colSign s j * l1Start a (pos a c (column π j))
  rw [l1Start_pos (a := settings a π s) hc hj, l1Start_pos hc (column_cols π hj)]
  have hcols : a.cols = a.p + 1 := by unfold PathArgs.cols; rw [if_pos hf]
  have hcols' : (settings a π s).cols = a.p + 1 := hcols
  by_cases h : j < a.p
  · have hcl := (column_lt π).2 h
    have n1 : ¬ (j + 1 = a.p + 1) := by omega
    have n2 : ¬ (column π j + 1 = a.p + 1) := by omega
    unfold startPoint
    rw [hcols, hcols']
    rcases hmk : a.mask with _ | m <;> rcases hwm : a.warm with _ | ⟨w, C⟩
    all_goals
      simp only [settings, hmk, hwm, Option.map_none, Option.map_some, n1, n2, and_false, if_false, h, hcl, if_true,
        table]
    · simp
    · have := hw _ hwm
      simp only at this
      rw [if_pos (by omega), if_pos (by omega)]
    · simp
    · have := hw _ hwm
      simp only at this
      rw [if_pos (by omega), if_pos (by omega)]
      ring
  · have hjp : j = a.p := by omega
    subst hjp
    have e1 : column π a.p = a.p := by simp [column]
    have e2 : colSign s a.p = 1 := by simp [colSign]
    rw [e1, e2, one_mul]
    unfold startPoint
    rw [hcols, hcols']
    rcases hmk : a.mask with _ | m <;> rcases hwm : a.warm with _ | ⟨w, C⟩
    all_goals
      simp only [settings, hmk, hwm, Option.map_none, Option.map_some, table, e1, e2, one_mul, lt_irrefl, if_false]

theorem l1_compat {a : PathArgs} {π : Equiv.Perm (Fin a.p)} {s : Fin a.p → ℝ} (hs : ∀ j, s j = 1 ∨ s j = -1)
    (C tol : ℝ) (maxIter : Nat) :
    ∀ q, fminPar (l1Args a C tol maxIter) = .ok q → Compat (l1Flat a π s) (fillEnd a.size q) := by
  intro q hq
  obtain ⟨h0, ls, rfl⟩ := fminPar_form hq
  refine reorder_compat _ _ (blockSign_pm a.rows s hs) _ ?_ (fun _ => ?_)
  · rw [fillEnd_eq]; exact h0
  · rw [fillEnd_eq]
    have e : (if (l1Args a C tol maxIter).par.stop < 0 then ((a.size : Nat) : Int) else (l1Args a C tol maxIter).par.stop)
        = ((a.rows * a.p : Nat) : Int) := by
      show (if ((a.coefSize : Nat) : Int) < 0 then _ else ((a.coefSize : Nat) : Int)) = _
      rw [if_neg (by omega)]; rfl
    intro i
    show Penalised 0 (if (l1Args a C tol maxIter).par.stop < 0 then ((a.size : Nat) : Int)
        else (l1Args a C tol maxIter).par.stop) i ↔
      Penalised 0 (if (l1Args a C tol maxIter).par.stop < 0 then ((a.size : Nat) : Int)
        else (l1Args a C tol maxIter).par.stop) _
    rw [e]
    exact block_penalised (coefSize_le a) π i

theorem coefs_pos (a : PathArgs) (x : Nat → ℝ) {c : Nat} (hc : c < a.rows) (j : Nat) : coefs a x c j = x (pos a c j) := by
  unfold coefs pos
  rw [rows_eq] at hc
  cases hm : a.multi with
  | false =>
    rw [hm] at hc
    have : c = 0 := by simpa using hc
    subst this
    simp [reshape]
  | true => simp [reshape, transpose]

theorem outcome_same {a : PathArgs} (π : Equiv.Perm (Fin a.p)) (s : Fin a.p → ℝ) (res : Res a.size ℝ) :
    SameOutcome a π s (l1Outcome res) (l1Outcome (changed (l1Flat a π s) res)) := by
  rcases res with ⟨x, w⟩ | ⟨e, msg⟩
  · intro c j hc hj
    rw [coefs_pos a _ hc]
    show ofVec (l1Flat a π s x) _ = colSign s j * coefs a (ofVec x) c (column π j)
    rw [coefs_pos a _ hc, l1Flat_pos π s x hc hj]
  · show SameOutcome a π s (l1Outcome (.raised e msg)) (l1Outcome (.raised e msg))
    cases e <;> simp [l1Outcome, SameOutcome]

/-- A fit whose tolerance is larger than the gradient can be returns its start. -/
theorem l1Fit_loose {a : PathArgs} {d : L1Data n} {M W C tol : ℝ} (hb : Bounded a d M W) (hC : 0 < C) (ht : 0 ≤ tol)
    (hs : 0 < a.size) (hM : a.size * (M * W + 1 / C) ^ 2 ≤ tol ^ 2) (maxIter : Nat) :
    L1Fit a d C tol maxIter (.ok (.point (ofVec fun i : Fin a.size => l1Start a i))) none := by
  obtain ⟨hp, hck⟩ := l1_accepted a hC ht maxIter hs
  have hc : 0 < 1 / C := by positivity
  refine ⟨_, _, .run hp (.already hck ?_), rfl, rfl⟩
  have hfill : fillEnd a.size { (l1Args a C tol maxIter).par with linesearch := 2 } =
      { (l1Args a C tol maxIter).par with linesearch := 2 } := by
    unfold fillEnd
    rw [if_neg (by simp [l1Args])]
  rw [hfill]
  unfold already converged
  have hcne : ¬ feq (l1Args a C tol maxIter).par.c 0 := by rw [feq_iff]; exact hc.ne'
  have hg : vec2norm (l1Callables a d).env.sqrt
      (effGrad { (l1Args a C tol maxIter).par with linesearch := 2 }
        (start (l1Callables a d).env { (l1Args a C tol maxIter).par with linesearch := 2 }
          (fun i => l1Start a i) 0).g
        (start (l1Callables a d).env { (l1Args a C tol maxIter).par with linesearch := 2 }
          (fun i => l1Start a i) 0).pg) ≤ tol := by
    unfold vec2norm
    rw [vecdot_eq]
    refine Real.sqrt_le_iff.2 ⟨ht, le_trans ?_ hM⟩
    unfold dot
    calc _ ≤ ∑ _i : Fin a.size, (M * W + 1 / C) ^ 2 := by
          refine sum_le_sum fun i _ => ?_
          simp only [effGrad, start, if_neg hcne]
          rw [← sq, ← sq_abs]
          refine pow_le_pow_left₀ (abs_nonneg _) ?_ 2
          refine (abs_pseudoGradient_le _ _ hc.le _ _ i).trans ?_
          have := l1Func_bounded hb (ofVec fun i : Fin a.size => l1Start a i) i.isLt
          exact add_le_add_left this _
      _ = _ := by simp
  have hpos : (0 : ℝ) ≤ vec2norm (l1Callables a d).env.sqrt
      (effGrad { (l1Args a C tol maxIter).par with linesearch := 2 }
        (start (l1Callables a d).env { (l1Args a C tol maxIter).par with linesearch := 2 }
          (fun i => l1Start a i) 0).g
        (start (l1Callables a d).env { (l1Args a C tol maxIter).par with linesearch := 2 }
          (fun i => l1Start a i) 0).pg) := Real.sqrt_nonneg _
  have key : ∀ xn gn : ℝ, 0 ≤ gn → gn ≤ tol → gn / (if xn < 1 then 1 else xn) ≤ tol := by
    intro xn gn h0 h1
    split_ifs with h
    · rwa [div_one]
    · exact (div_le_self h0 (not_lt.1 h)).trans h1
  exact key _ _ hpos hg

end Logistic

/-! ### Order of the rows -/
section Rows
open Verif.Poisson Verif.Scaling Verif.Logistic

theorem mean_rows (ρ : Equiv.Perm (Fin n)) (f : Fin n → ℝ) : (Utils.mean fun i => f (ρ i)) = Utils.mean f := by
  unfold Utils.mean
  rw [Equiv.sum_comp ρ f]

theorem scaler_rows (ρ : Equiv.Perm (Fin n)) (w : Bool) (X : Fin n → Fin p → ℝ) :
    standardScaler w (fun i => X (ρ i)) = standardScaler w X := by
  have h : ∀ j, (Utils.mean fun i => X (ρ i) j) = Utils.mean fun i => X i j := fun j => mean_rows ρ fun i => X i j
  have h' : ∀ j t, (Utils.mean fun i => (X (ρ i) j - t) ^ 2) = Utils.mean fun i => (X i j - t) ^ 2 :=
    fun j t => mean_rows ρ fun i => (X i j - t) ^ 2
  unfold standardScaler
  simp only [h, h']

theorem preX_rows (ρ : Equiv.Perm (Fin n)) (a : LArgs) (X : Fin n → Fin p → ℝ) :
    preX a (fun i => X (ρ i)) = fun i => preX a X (ρ i) := by
  unfold preX
  rw [scaler_rows]
  split_ifs <;> rfl

theorem lossGrad_rows (ρ : Equiv.Perm (Fin n)) (X : Fin n → Fin p → ℝ) (y sw : Fin n → ℝ) (l2 : ℝ) (c : Fin p → ℝ)
    (b : Option ℝ) : lossGrad (fun i => X (ρ i)) (fun i => y (ρ i)) (fun i => sw (ρ i)) l2 c b = lossGrad X y sw l2 c b := by
  unfold lossGrad
  dsimp only
  refine Prod.ext ?_ (Prod.ext ?_ ?_)
  · dsimp only
    congr 3
    exact Fintype.sum_equiv ρ _ _ fun i => rfl
  · funext j
    dsimp only
    congr 3
    exact Fintype.sum_equiv ρ _ _ fun i => rfl
  · cases b with
    | none => rfl
    | some b =>
      simp only [Option.map_some]
      congr 3
      exact Fintype.sum_equiv ρ _ _ fun i => rfl

theorem poisCallables_rows (ρ : Equiv.Perm (Fin n)) (a : LArgs) (X : Fin n → Fin p → ℝ) (y sw : Fin n → ℝ) :
    poisCallables a (preX a fun i => X (ρ i)) (fun i => y (ρ i)) (fun i => sw (ρ i)) =
      poisCallables a (preX a X) y sw := by
  unfold poisCallables flatLoss
  simp only [preX_rows, lossGrad_rows]

theorem binLossGrad_rows (ρ : Equiv.Perm (Fin n)) (X : Fin n → Fin p → ℝ) (y sw : Fin n → ℝ)
    (mask : Option (Fin p → ℝ)) (w : Fin p → ℝ) (b : Option ℝ) :
    binLossGrad (fun i => X (ρ i)) (fun i => y (ρ i)) 0 mask (fun i => sw (ρ i)) w b = binLossGrad X y 0 mask sw w b := by
  unfold binLossGrad
  dsimp only
  refine Prod.ext ?_ (Prod.ext ?_ ?_)
  · dsimp only
    congr 3
    exact Fintype.sum_equiv ρ _ _ fun i => rfl
  · dsimp only
    congr 1
    funext j
    congr 2
    exact Fintype.sum_equiv ρ _ _ fun i => rfl
  · cases b with
    | none => rfl
    | some b =>
      simp only [Option.map_some]
      congr 2
      exact Fintype.sum_equiv ρ _ _ fun i => rfl

theorem multiLossGrad_rows {k : Nat} (ρ : Equiv.Perm (Fin n)) (X : Fin n → Fin p → ℝ) (Y : Fin n → Fin k → ℝ)
    (sw : Fin n → ℝ) (mask : Option (Fin k → Fin p → ℝ)) (w : Fin k → Fin p → ℝ) (b : Option (Fin k → ℝ)) :
    multiLossGrad (fun i => X (ρ i)) (fun i => Y (ρ i)) 0 mask (fun i => sw (ρ i)) w b =
      multiLossGrad X Y 0 mask sw w b := by
  unfold multiLossGrad
  dsimp only
  refine Prod.ext ?_ (Prod.ext ?_ ?_)
  · dsimp only
    congr 3
    exact Fintype.sum_equiv ρ _ _ fun i => rfl
  · dsimp only
    congr 1
    funext c j
    congr 2
    exact Fintype.sum_equiv ρ _ _ fun i => rfl
  · cases b with
    | none => rfl
    | some b =>
      simp only [Option.map_some]
      congr 1
      funext c
      congr 1
      exact Fintype.sum_equiv ρ _ _ fun i => rfl

theorem l1Callables_rows (ρ : Equiv.Perm (Fin n)) (a : PathArgs) (d : L1Data n) :
    l1Callables a (dataRows d ρ) = l1Callables a d := by
  have h1 : binFlat a (dataRows d ρ) = binFlat a d := by
    funext x
    unfold binFlat dataRows
    simp only [binLossGrad_rows ρ (fun i (j : Fin a.p) => d.X i j) d.y d.sw]
  have h2 : multiFlat a (dataRows d ρ) = multiFlat a d := by
    funext x
    unfold multiFlat dataRows
    simp only [multiLossGrad_rows ρ (fun i (j : Fin a.p) => d.X i j) (fun i (c : Fin a.k) => d.Y i c) d.sw]
  unfold l1Callables l1Func
  rw [h1, h2]

theorem poisStart_rows (ρ : Equiv.Perm (Fin n)) (a : LArgs) (X : Fin n → Fin p → ℝ) (o : PObj p) :
    poisStart a (fun i => X (ρ i)) o = poisStart a X o := by
  unfold poisStart
  rw [scaler_rows]

theorem poisStore_rows (ρ : Equiv.Perm (Fin n)) (a : LArgs) (X : Fin n → Fin p → ℝ) (o : PObj p)
    (x : Fin (a.size p) → ℝ) : poisStore a (fun i => X (ρ i)) o x = poisStore a X o x := by
  unfold poisStore
  rw [scaler_rows]

end Rows

end Verif.FeatureOrder
