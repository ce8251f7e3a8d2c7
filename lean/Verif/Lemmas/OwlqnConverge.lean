import Verif.Lemmas.Converge
import Verif.Spec.OwlqnConverge
import Mathlib.Data.Fintype.Pigeonhole
import Mathlib.Algebra.BigOperators.Field
/-! Helper lemmas for the convergence of the minimiser with an L1 penalty. -/
namespace Verif.Lbfgs
open Finset Spec

variable {n : Nat} {σ K : Type} [Field K] [LinearOrder K] [IsStrictOrderedRing K]

/-! ### Sequences of points -/

/-- What an iteration does to the point: the squared length of the step bounds the decrease, either the
    decrease is at least `δ` or a coordinate in `S` with slope at least `δ1` is set to zero, and these coordinates
    leave zero only against the gradient. -/
structure OwlStep (S : Fin n → Prop) (Φ : (Fin n → K) → K) (G : (Fin n → K) → Fin n → K) (c κ δ δ1 : K) (a b : Fin n → K) : Prop where
  dec : κ * dot (fun i => b i - a i) (fun i => b i - a i) ≤ Φ a - Φ b
  gain : δ ≤ Φ a - Φ b ∨ ∃ i, S i ∧ b i = 0 ∧ ((0 < a i ∧ δ1 ≤ G a i + c) ∨ (a i < 0 ∧ G a i - c ≤ -δ1))
  up : ∀ i, S i → 0 < b i → 0 < a i ∨ (a i = 0 ∧ G a i + c ≤ 0)
  down : ∀ i, S i → b i < 0 → a i < 0 ∨ (a i = 0 ∧ 0 ≤ G a i - c)

theorem owl_travel {S : Fin n → Prop} {Φ : (Fin n → K) → K} {G : (Fin n → K) → Fin n → K} {c κ δ δ1 : K} (hκ : 0 < κ)
    {X : Nat → Fin n → K} (a : Nat) :
    ∀ m, (∀ k, a ≤ k → k < a + m → OwlStep S Φ G c κ δ δ1 (X k) (X (k + 1))) →
      0 ≤ Φ (X a) - Φ (X (a + m)) ∧
      κ * dot (fun i => X (a + m) i - X a i) (fun i => X (a + m) i - X a i) ≤ m * (Φ (X a) - Φ (X (a + m)))
  | 0, _ => by simp [dot]
  | m + 1, h => by
    obtain ⟨h0, h1⟩ := owl_travel hκ a m (fun k hk hk' => h k hk (by omega))
    have h2 := (h (a + m) (by omega) (by omega)).dec
    have h3 := mul_nonneg hκ.le (dot_nonneg (fun i => X (a + m + 1) i - X (a + m) i))
    rw [show a + (m + 1) = a + m + 1 by omega]
    refine ⟨by linarith, ?_⟩
    rcases Nat.eq_zero_or_pos m with rfl | hm
    · simpa using h2
    have hm' : (0 : K) < m := Nat.cast_pos.2 hm
    have := titu (fun i => X (a + m) i - X a i) (fun i => X (a + m + 1) i - X (a + m) i) (α := (m : K)) (β := 1)
      (A := (Φ (X a) - Φ (X (a + m))) / κ) (B := (Φ (X (a + m)) - Φ (X (a + m + 1))) / κ) hm' one_pos
      (by rw [mul_div_assoc', le_div_iff₀ hκ]; linarith)
      (by rw [one_mul, le_div_iff₀ hκ]; linarith)
    have e : (fun i => X (a + m) i - X a i + (X (a + m + 1) i - X (a + m) i)) =
        fun i => X (a + m + 1) i - X a i := by funext i; ring
    beta_reduce at this
    rw [e, ← add_div, mul_div_assoc', le_div_iff₀ hκ] at this
    push_cast
    calc _ = dot (fun i => X (a + m + 1) i - X a i) (fun i => X (a + m + 1) i - X a i) * κ := mul_comm _ _
      _ ≤ _ := this
      _ = _ := by ring

/-- A coordinate that is zero and later positive has left zero against the gradient. -/
theorem owl_left {S : Fin n → Prop} {Φ : (Fin n → K) → K} {G : (Fin n → K) → Fin n → K} {c κ δ δ1 : K}
    {X : Nat → Fin n → K} {a : Nat} {i : Fin n} (hi : S i) (h0 : X a i = 0) :
    ∀ m, (∀ k, a ≤ k → k < a + m → OwlStep S Φ G c κ δ δ1 (X k) (X (k + 1))) →
      (0 < X (a + m) i → ∃ l, a ≤ l ∧ l < a + m ∧ G (X l) i + c ≤ 0) ∧
      (X (a + m) i < 0 → ∃ l, a ≤ l ∧ l < a + m ∧ 0 ≤ G (X l) i - c)
  | 0, _ => ⟨fun h => absurd h (by rw [Nat.add_zero, h0]; exact lt_irrefl _),
      fun h => absurd h (by rw [Nat.add_zero, h0]; exact lt_irrefl _)⟩
  | m + 1, h => by
    obtain ⟨h1, h2⟩ := owl_left hi h0 m (fun k hk hk' => h k hk (by omega))
    have hs := h (a + m) (by omega) (by omega)
    refine ⟨fun hp => ?_, fun hp => ?_⟩
    · rcases hs.up i hi hp with hq | ⟨_, hq⟩
      · obtain ⟨l, hl⟩ := h1 hq
        exact ⟨l, hl.1, by omega, hl.2.2⟩
      · exact ⟨a + m, by omega, by omega, hq⟩
    · rcases hs.down i hi hp with hq | ⟨_, hq⟩
      · obtain ⟨l, hl⟩ := h2 hq
        exact ⟨l, hl.1, by omega, hl.2.2⟩
      · exact ⟨a + m, by omega, by omega, hq⟩

/-- In `n + 1` consecutive iterations the objective decreases by a fixed amount. -/
theorem owl_window {S : Fin n → Prop} {Φ : (Fin n → K) → K} {G : (Fin n → K) → Fin n → K} {c κ δ δ1 L : K} (hκ : 0 < κ)
    (hL : 0 < L) (hδ1 : 0 < δ1)
    (hlip : ∀ x y, dot (fun i => G x i - G y i) (fun i => G x i - G y i) ≤
      L ^ 2 * dot (fun i => x i - y i) (fun i => x i - y i))
    {X : Nat → Fin n → K} (a : Nat)
    (h : ∀ k, a ≤ k → k < a + (n + 1) → OwlStep S Φ G c κ δ δ1 (X k) (X (k + 1))) :
    min δ (κ * δ1 ^ 2 / (L ^ 2 * (n + 1))) ≤ Φ (X a) - Φ (X (a + (n + 1))) := by
  have mono : ∀ k m, a ≤ k → k + m ≤ a + (n + 1) → Φ (X (k + m)) ≤ Φ (X k) := by
    intro k m h1 h2
    have := (owl_travel hκ k m (fun j hj hj' => h j (by omega) (by omega))).1
    linarith
  have mono' : ∀ k l, a ≤ k → k ≤ l → l ≤ a + (n + 1) → Φ (X l) ≤ Φ (X k) := by
    intro k l h1 h2 h3
    have := mono k (l - k) h1 (by omega)
    rwa [show k + (l - k) = l by omega] at this
  by_cases hg : ∃ k, a ≤ k ∧ k < a + (n + 1) ∧ δ ≤ Φ (X k) - Φ (X (k + 1))
  · obtain ⟨k, h1, h2, h3⟩ := hg
    have h4 := mono' a k le_rfl h1 (by omega)
    have h5 := mono' (k + 1) (a + (n + 1)) (by omega) (by omega) le_rfl
    exact (min_le_left _ _).trans (by linarith)
  push Not at hg
  have hz : ∀ k : Fin (n + 1), ∃ i, S i ∧ X (a + k + 1) i = 0 ∧ ((0 < X (a + k) i ∧ δ1 ≤ G (X (a + k)) i + c) ∨
      (X (a + k) i < 0 ∧ G (X (a + k)) i - c ≤ -δ1)) := fun k =>
    ((h (a + k) (by omega) (by omega)).gain).resolve_left (not_le.2 (hg _ (by omega) (by omega)))
  choose f hf using hz
  obtain ⟨u, v, huv, hfe⟩ : ∃ u v : Fin (n + 1), u < v ∧ f u = f v := by
    obtain ⟨u, v, hne, he⟩ := Fintype.exists_ne_map_eq_of_card_lt f (by simp)
    rcases lt_or_gt_of_ne hne with hlt | hlt
    · exact ⟨u, v, hlt, he⟩
    · exact ⟨v, u, hlt, he.symm⟩
  have h0 := (hf u).2.1
  have h1 := (hf v).2.2
  rw [hfe] at h0
  set i := f v
  have huv' : (u : Nat) < v := huv
  have hleft := owl_left (Φ := Φ) (G := G) (c := c) (κ := κ) (δ := δ) (δ1 := δ1) (hf v).1 h0 (a + v - (a + u + 1))
    (fun k hk hk' => h k (by omega) (by omega))
  rw [show a + (u : Nat) + 1 + (a + v - (a + u + 1)) = a + v by omega] at hleft
  obtain ⟨l, hl1, hl2, hch⟩ : ∃ l, a ≤ l ∧ l < a + v ∧ δ1 ^ 2 ≤ (G (X (a + v)) i - G (X l) i) ^ 2 := by
    rcases h1 with ⟨h1, h2⟩ | ⟨h1, h2⟩
    · obtain ⟨l, hl1, hl2, hl3⟩ := hleft.1 h1
      exact ⟨l, by omega, hl2, by nlinarith⟩
    · obtain ⟨l, hl1, hl2, hl3⟩ := hleft.2 h1
      exact ⟨l, by omega, hl2, by nlinarith⟩
  have hc1 : (G (X (a + v)) i - G (X l) i) ^ 2 ≤ L ^ 2 * dot (fun i => X (a + v) i - X l i)
      (fun i => X (a + v) i - X l i) := by
    refine le_trans ?_ (hlip (X (a + v)) (X l))
    unfold dot
    rw [sq]
    exact single_le_sum (f := fun i => (G (X (a + v)) i - G (X l) i) * (G (X (a + v)) i - G (X l) i))
      (fun _ _ => mul_self_nonneg _) (mem_univ i)
  obtain ⟨ht0, ht⟩ := owl_travel (S := S) (Φ := Φ) (G := G) (c := c) (δ := δ) (δ1 := δ1) hκ (X := X) l (a + v - l)
    (fun k hk hk' => h k (by omega) (by omega))
  rw [show l + (a + (v : Nat) - l) = a + v by omega] at ht ht0
  have hm : ((a + (v : Nat) - l : Nat) : K) ≤ n + 1 := by exact_mod_cast (by omega : a + (v : Nat) - l ≤ n + 1)
  have h5 := mono' a l le_rfl hl1 (by omega)
  have h6 := mono' (a + v) (a + (n + 1)) (by omega) (by omega) le_rfl
  have hn1 : (0 : K) < n + 1 := by positivity
  refine (min_le_right _ _).trans ?_
  rw [div_le_iff₀ (by positivity)]
  have h7 : κ * δ1 ^ 2 ≤ L ^ 2 * (κ * dot (fun i => X (a + v) i - X l i) (fun i => X (a + v) i - X l i)) := by
    have := mul_le_mul_of_nonneg_left (hch.trans hc1) hκ.le
    linarith
  have h8 : κ * dot (fun i => X (a + v) i - X l i) (fun i => X (a + v) i - X l i) ≤
      (n + 1) * (Φ (X l) - Φ (X (a + v))) :=
    ht.trans (mul_le_mul_of_nonneg_right hm ht0)
  have h9 : (n + 1 : K) * (Φ (X l) - Φ (X (a + v))) ≤ (n + 1) * (Φ (X a) - Φ (X (a + (n + 1)))) :=
    mul_le_mul_of_nonneg_left (by linarith) hn1.le
  have := mul_le_mul_of_nonneg_left (h8.trans h9) (show 0 ≤ L ^ 2 by positivity)
  linarith

/-- Hence the number of iterations is bounded. -/
theorem owl_count {S : Fin n → Prop} {Φ : (Fin n → K) → K} {G : (Fin n → K) → Fin n → K} {c κ δ δ1 L : K} (hκ : 0 < κ)
    (hL : 0 < L) (hδ : 0 ≤ δ) (hδ1 : 0 < δ1)
    (hlip : ∀ x y, dot (fun i => G x i - G y i) (fun i => G x i - G y i) ≤
      L ^ 2 * dot (fun i => x i - y i) (fun i => x i - y i))
    {X : Nat → Fin n → K} (a m : Nat)
    (h : ∀ k, a ≤ k → k < a + m → OwlStep S Φ G c κ δ δ1 (X k) (X (k + 1))) :
    ((m : K) - n) * min δ (κ * δ1 ^ 2 / (L ^ 2 * (n + 1))) ≤ (n + 1) * (Φ (X a) - Φ (X (a + m))) := by
  set D := min δ (κ * δ1 ^ 2 / (L ^ 2 * (n + 1))) with hD
  have hD0 : 0 ≤ D := le_min hδ (by positivity)
  have hn1 : (0 : K) < n + 1 := by positivity
  induction m using Nat.strong_induction_on with
  | _ m ih =>
    rcases Nat.lt_or_ge m (n + 1) with hm | hm
    · have h1 := (owl_travel hκ a m h).1
      have h2 : (m : K) ≤ n := by exact_mod_cast Nat.lt_succ_iff.1 hm
      have := mul_nonneg (sub_nonneg.2 h2) hD0
      have := mul_nonneg hn1.le h1
      linarith
    · have h1 := ih (m - (n + 1)) (by omega) (fun k hk hk' => h k hk (by omega))
      have h2 := owl_window hκ hL hδ1 hlip (a + (m - (n + 1))) (fun k hk hk' => h k (by omega) (by omega))
      rw [show a + (m - (n + 1)) + (n + 1) = a + m by omega] at h2
      rw [← hD] at h2
      have h3 : ((m - (n + 1) : Nat) : K) = m - (n + 1) := by
        rw [Nat.cast_sub hm]; push_cast; ring
      rw [h3] at h1
      have h4 := mul_le_mul_of_nonneg_left h2 hn1.le
      linarith

/-! ### One coordinate -/

/-- The projected step, coordinate by coordinate. -/
def move (x d pg a : K) : K := if (x + a * d) * (if feq x 0 then -pg else x) ≤ 0 then 0 else x + a * d

theorem move_cases {x d pg a : K} (ha : 0 < a) (hd : d = 0 ∨ d * pg < 0) :
    move x d pg a = x + a * d ∨
      (move x d pg a = 0 ∧ x ≠ 0 ∧ d ≠ 0 ∧ 0 < x * pg ∧ |x| ≤ a * |d|) := by
  unfold move
  split_ifs with hx h h
  · have hx := feq_iff.1 hx
    subst hx
    rw [zero_add] at h ⊢
    left
    rcases hd with rfl | hd
    · simp
    · nlinarith
  · exact .inl rfl
  · have hx' : x ≠ 0 := fun h0 => hx (feq_iff.2 h0)
    have hd0 : d ≠ 0 := by
      rintro rfl
      rw [mul_zero, add_zero] at h
      exact absurd h (not_le.2 (mul_self_pos.2 hx'))
    have hd := hd.resolve_left hd0
    have h1 : a * (d * x) ≤ -(x * x) := by nlinarith
    have h2 : 0 < x * x := mul_self_pos.2 hx'
    have h3 : d * x < 0 := by
      by_contra hn
      nlinarith [mul_nonneg ha.le (not_lt.1 hn)]
    refine .inr ⟨rfl, hx', hd0, ?_, ?_⟩
    · have : 0 < (d * pg) * (d * x) := mul_pos_of_neg_of_neg hd h3
      have h5 : 0 < (d * d) * (x * pg) := by nlinarith
      exact (mul_pos_iff_of_pos_left (mul_self_pos.2 hd0)).1 h5
    · have h6 : |x| * |x| ≤ a * |d| * |x| := by
        rw [abs_mul_abs_self, mul_assoc, ← abs_mul, abs_of_neg h3]
        linarith
      exact le_of_mul_le_mul_right h6 (abs_pos.2 hx')
  · exact .inl rfl

theorem move_abs {x d pg a : K} (ha : 0 < a) (hd : d = 0 ∨ d * pg < 0) : |move x d pg a - x| ≤ a * |d| := by
  rcases move_cases (x := x) ha hd with h | ⟨h, _, _, _, h1⟩
  · rw [h, add_sub_cancel_left, abs_mul, abs_of_pos ha]
  · rw [h, zero_sub, abs_neg]; exact h1

theorem move_slope {x d pg a : K} (ha : 0 < a) (hd : d = 0 ∨ d * pg < 0) : (move x d pg a - x) * pg ≤ 0 :=
  project_descent ha hd

/-- If a step does not set the coordinate to zero, twice the step still goes at least as far. -/
theorem move_double {x d pg a : K} (ha : 0 < a) (hd : d = 0 ∨ d * pg < 0) (h : move x d pg a = x + a * d) :
    a * -(d * pg) ≤ -((move x d pg (2 * a) - x) * pg) := by
  have hq : 0 ≤ -(d * pg) := by
    rcases hd with rfl | hd
    · simp
    · linarith
  rcases move_cases (x := x) (show 0 < 2 * a by linarith) hd with h2 | ⟨h2, hx, _, hxp, _⟩
  · rw [h2]
    nlinarith [mul_nonneg ha.le hq]
  · rw [h2]
    suffices 0 ≤ (x + a * d) * pg by nlinarith
    unfold move at h
    rw [if_neg (fun h0 => hx (feq_iff.1 h0))] at h
    split_ifs at h with h3
    · rw [← h, zero_mul]
    · push Not at h3
      have h4 : 0 < ((x + a * d) * x) * (x * pg) := mul_pos h3 hxp
      have h5 : 0 < (x * x) * ((x + a * d) * pg) := by nlinarith
      exact ((mul_pos_iff_of_pos_left (mul_self_pos.2 hx)).1 h5).le

/-- The pseudo-gradient of a penalised coordinate. -/
theorem pseudo_cases {x g : Fin n → K} {c : K} {start stop : Int} {i : Fin n} (hi : Penalised start stop i) :
    (0 < x i → pseudoGradient x g c start stop i = g i + c) ∧
    (x i < 0 → pseudoGradient x g c start stop i = g i - c) ∧
    (x i = 0 → (pseudoGradient x g c start stop i = g i + c ∧ g i + c < 0) ∨
      (pseudoGradient x g c start stop i = g i - c ∧ 0 < g i - c) ∨ pseudoGradient x g c start stop i = 0) := by
  unfold pseudoGradient
  rw [if_pos (show _ ∧ _ from hi)]
  refine ⟨fun h => ?_, fun h => ?_, fun h => ?_⟩
  · rw [if_neg h.not_gt, if_pos h]
  · rw [if_pos h]
  · rw [if_neg (by rw [h]; exact lt_irrefl _), if_neg (by rw [h]; exact lt_irrefl _)]
    split_ifs with h1 h2
    · exact .inl ⟨rfl, by linarith⟩
    · exact .inr (.inl ⟨rfl, by linarith⟩)
    · exact .inr (.inr rfl)

/-- The sign of the new coordinate. -/
theorem move_sign {x d pg a : K} (ha : 0 < a) (hd : d = 0 ∨ d * pg < 0) :
    (0 < move x d pg a → 0 < x ∨ (x = 0 ∧ pg < 0)) ∧ (move x d pg a < 0 → x < 0 ∨ (x = 0 ∧ 0 < pg)) := by
  rcases eq_or_ne x 0 with rfl | hx
  · rcases move_cases (x := (0 : K)) ha hd with h | ⟨_, h, _⟩
    · rw [h, zero_add]
      refine ⟨fun h => .inr ⟨rfl, ?_⟩, fun h => .inr ⟨rfl, ?_⟩⟩
      · rcases hd with rfl | hd
        · simp at h
        · have : 0 < d := (mul_pos_iff_of_pos_left ha).1 h
          nlinarith
      · rcases hd with rfl | hd
        · simp at h
        · have : d < 0 := by nlinarith
          nlinarith
    · exact absurd rfl h
  · unfold move
    rw [if_neg (fun h0 => hx (feq_iff.1 h0))]
    split_ifs with h
    · exact ⟨fun h => absurd h (lt_irrefl _), fun h => absurd h (lt_irrefl _)⟩
    · push Not at h
      exact ⟨fun h1 => .inl ((mul_pos_iff_of_pos_left h1).1 h), fun h1 => .inl (by nlinarith)⟩

/-- Along a projected step the penalty is linear, with the slope that the pseudo-gradient has for it. -/
theorem move_penalty {x g d : Fin n → K} {c a : K} {start stop : Int} {i : Fin n} (hi : Penalised start stop i)
    (ha : 0 < a) (pg : K) (hpg : pg = pseudoGradient x g c start stop i) (hd : d i = 0 ∨ d i * pg < 0) :
    c * |move (x i) (d i) pg a| - c * |x i| = (pg - g i) * (move (x i) (d i) pg a - x i) := by
  obtain ⟨h1, h2, h3⟩ := pseudo_cases (x := x) (g := g) (c := c) hi
  rw [← hpg] at h1 h2 h3
  obtain ⟨s1, s2⟩ := move_sign (x := x i) ha hd
  set y := move (x i) (d i) pg a with hy
  rcases lt_trichotomy (x i) 0 with hx | hx | hx
  · have hy0 : y ≤ 0 := by
      by_contra hn
      rcases s1 (not_le.1 hn) with h | ⟨h, _⟩
      · exact absurd h hx.not_gt
      · exact absurd h hx.ne
    rw [h2 hx, abs_of_neg hx, abs_of_nonpos hy0]; ring
  · rw [hx, abs_zero]
    rcases lt_trichotomy y 0 with h | h | h
    · rcases s2 h with h4 | ⟨_, h4⟩
      · rw [hx] at h4; exact absurd h4 (lt_irrefl _)
      · rcases h3 hx with ⟨h5, h6⟩ | ⟨h5, _⟩ | h5
        · rw [h5] at h4; exact absurd h4 h6.not_gt
        · rw [abs_of_neg h]; rw [h5]; ring
        · rw [h5] at h4; exact absurd h4 (lt_irrefl _)
    · rw [h]; simp
    · rcases s1 h with h4 | ⟨_, h4⟩
      · rw [hx] at h4; exact absurd h4 (lt_irrefl _)
      · rcases h3 hx with ⟨h5, _⟩ | ⟨h5, h6⟩ | h5
        · rw [abs_of_pos h, h5]; ring
        · rw [h5] at h4; exact absurd h4 h6.not_gt
        · rw [h5] at h4; exact absurd h4 (lt_irrefl _)
  · have hy0 : 0 ≤ y := by
      by_contra hn
      rcases s2 (not_le.1 hn) with h | ⟨h, _⟩
      · exact absurd h hx.not_gt
      · exact absurd h hx.ne'
    rw [h1 hx, abs_of_pos hx, abs_of_nonneg hy0]; ring

/-! ### One iteration -/

/-- The objective is at least its quadratic minorant. -/
theorem strong_below {F : (Fin n → K) → K} {G : (Fin n → K) → Fin n → K} {mu L : K} (hG : StrongSmooth G mu L)
    (hF : ConvexGrad F G) (x y : Fin n → K) :
    F x + dot (G x) (fun i => y i - x i) + mu / 4 * dot (fun i => y i - x i) (fun i => y i - x i) ≤ F y := by
  set z : Fin n → K := fun i => (x i + y i) / 2 with hz
  have h1 := hF x z
  have h2 := hF z y
  have h3 := hG.mono z x
  have e1 : dot (G x) (fun i => z i - x i) = dot (G x) (fun i => y i - x i) / 2 := by
    unfold dot; rw [sum_div]; exact sum_congr rfl fun i _ => by simp only [hz]; ring
  have e2 : dot (G z) (fun i => y i - z i) = dot (G z) (fun i => y i - x i) / 2 := by
    unfold dot; rw [sum_div]; exact sum_congr rfl fun i _ => by simp only [hz]; ring
  have e3 : dot (fun i => z i - x i) (fun i => z i - x i) = dot (fun i => y i - x i) (fun i => y i - x i) / 4 := by
    unfold dot; rw [sum_div]; exact sum_congr rfl fun i _ => by simp only [hz]; ring
  have e4 : dot (fun i => G z i - G x i) (fun i => z i - x i) =
      (dot (G z) (fun i => y i - x i) - dot (G x) (fun i => y i - x i)) / 2 := by
    unfold dot; rw [← sum_sub_distrib, sum_div]; exact sum_congr rfl fun i _ => by simp only [hz]; ring
  rw [e1] at h1
  rw [e2] at h2
  rw [e3, e4] at h3
  linarith

theorem smooth_above {F : (Fin n → K) → K} {G : (Fin n → K) → Fin n → K} {mu L : K} (hG : StrongSmooth G mu L)
    (hF : ConvexGrad F G) (x y : Fin n → K) :
    F y ≤ F x + dot (G x) (fun i => y i - x i) + L * dot (fun i => y i - x i) (fun i => y i - x i) := by
  have h1 := hF y x
  have e1 : dot (G y) (fun i => x i - y i) = - dot (G y) (fun i => y i - x i) := by
    unfold dot; rw [← sum_neg_distrib]; exact sum_congr rfl fun i _ => by ring
  have h2 : dot (fun i => G y i - G x i) (fun i => y i - x i) ≤
      L * dot (fun i => y i - x i) (fun i => y i - x i) := by
    apply le_of_sq_le_sq _ (mul_nonneg hG.L_pos.le (dot_nonneg _))
    refine (cauchy _ _).trans ((mul_le_mul_of_nonneg_right (hG.lip y x) (dot_nonneg _)).trans (le_of_eq ?_))
    ring
  have e2 : dot (fun i => G y i - G x i) (fun i => y i - x i) =
      dot (G y) (fun i => y i - x i) - dot (G x) (fun i => y i - x i) := by
    unfold dot; rw [← sum_sub_distrib]; exact sum_congr rfl fun i _ => by ring
  rw [e1] at h1
  rw [e2] at h2
  linarith

/-- The penalised objective is at least its quadratic minorant. -/
theorem penalised_below {F : (Fin n → K) → K} {G : (Fin n → K) → Fin n → K} {mu L : K} (hG : StrongSmooth G mu L)
    (hF : ConvexGrad F G) {c : K} (hc : 0 ≤ c) (start stop : Int) (x y : Fin n → K) :
    penalised F c start stop x + dot (fun i => y i - x i) (pseudoGradient x (G x) c start stop) +
      mu / 4 * dot (fun i => y i - x i) (fun i => y i - x i) ≤ penalised F c start stop y := by
  have h1 := strong_below hG hF x y
  have h2 := pseudo_subgrad (F := fun z => dot (G x) z) (G := fun _ => G x) (c := c)
    (fun u v => le_of_eq (by
      unfold dot; rw [← sum_add_distrib]; exact sum_congr rfl fun i _ => by ring)) hc start stop x y
  have e : dot (G x) y = dot (G x) x + dot (G x) (fun i => y i - x i) := by
    unfold dot; rw [← sum_add_distrib]; exact sum_congr rfl fun i _ => by ring
  unfold penalised at h2 ⊢
  beta_reduce at h2
  rw [e] at h2
  linarith

theorem penalised_above {F : (Fin n → K) → K} {G : (Fin n → K) → Fin n → K} {mu L : K} (hG : StrongSmooth G mu L)
    (hF : ConvexGrad F G) {c a : K} (ha : 0 < a) {start stop : Int} (hall : ∀ i : Fin n, Penalised start stop i)
    (x d pg : Fin n → K) (hpg : pg = pseudoGradient x (G x) c start stop)
    (hd : ∀ i, d i = 0 ∨ d i * pg i < 0) (y : Fin n → K) (hy : y = fun i => move (x i) (d i) (pg i) a) :
    penalised F c start stop y ≤ penalised F c start stop x + dot (fun i => y i - x i) pg +
      L * dot (fun i => y i - x i) (fun i => y i - x i) := by
  have h1 := smooth_above hG hF x y
  have hl : ∀ z : Fin n → K, c * l1 start stop z = ∑ i, c * |z i| := by
    intro z
    unfold l1
    rw [mul_sum, filter_true_of_mem (fun i _ => hall i)]
  have h2 : c * l1 start stop y - c * l1 start stop x =
      dot (fun i => y i - x i) pg - dot (G x) (fun i => y i - x i) := by
    rw [hl, hl]
    unfold dot
    rw [← sum_sub_distrib, ← sum_sub_distrib]
    refine sum_congr rfl fun i _ => ?_
    have := move_penalty (x := x) (g := G x) (d := d) (c := c) (hall i) ha (pg i) (by rw [hpg]) (hd i)
    rw [hy]
    beta_reduce
    rw [this]
    ring
  unfold penalised
  linarith

/-- What an accepted step does. -/
theorem owl_step {F : (Fin n → K) → K} {G : (Fin n → K) → Fin n → K} {mu L : K} (hG : StrongSmooth G mu L)
    (hF : ConvexGrad F G) {c a ftol eps : K} (hc : 0 ≤ c) (ha : 0 < a) {start stop : Int}
    (hall : ∀ i : Fin n, Penalised start stop i)
    (hf0 : 0 < ftol) (hf1 : ftol < 1) (he : 0 < eps) (m : Nat)
    (x d pg : Fin n → K) (hpg : pg = pseudoGradient x (G x) c start stop)
    (hd : ∀ i, d i = 0 ∨ d i * pg i < 0)
    (hlo : dot pg d ≤ -(descent mu L m * dot pg pg)) (hup : dot d d ≤ stretch mu L m ^ 2 * dot pg pg)
    (hgg : eps ^ 2 < dot pg pg) (y : Fin n → K) (hy : y = fun i => move (x i) (d i) (pg i) a)
    (hacc : penalised F c start stop y ≤ penalised F c start stop x + ftol * dot (fun i => y i - x i) pg)
    (hrej : a = 1 ∨ penalised F c start stop x + ftol * dot (fun i => move (x i) (d i) (pg i) (2 * a) - x i) pg <
      penalised F c start stop (fun i => move (x i) (d i) (pg i) (2 * a))) :
    OwlStep (fun i => Penalised start stop i) (penalised F c start stop) G c (ftol * mu / 4) (owlGain ftol eps mu L m n) (owlSlope eps mu L m n)
      x y := by
  set l := descent mu L m with hl
  set U := stretch mu L m with hU
  have hl0 : 0 < l := descent_pos hG.mu_pos hG.L_pos m
  have hU0 : 0 < U := lt_of_lt_of_le one_pos (le_max_left _ _)
  have hL0 := hG.L_pos
  have hmu0 := hG.mu_pos
  set P := dot pg pg with hP
  have hP0 : 0 < P := lt_of_le_of_lt (sq_nonneg _) hgg
  have hn : 0 < n := by
    rcases Nat.eq_zero_or_pos n with rfl | h
    · rw [hP] at hP0; simp [dot] at hP0
    · exact h
  have hnK : (0 : K) < n := Nat.cast_pos.2 hn
  have hdesc : ∀ b : K, 0 < b → ∀ i, (move (x i) (d i) (pg i) b - x i) * pg i ≤ 0 := fun b hb i =>
    move_slope hb (hd i)
  refine ⟨?_, ?_, fun i _ hi => ?_, fun i _ hi => ?_⟩
  · have h1 := penalised_below hG hF hc start stop x y
    rw [← hpg] at h1
    have h2 := mul_nonneg (show 0 ≤ mu / 4 by positivity) (dot_nonneg (fun i => y i - x i))
    have h3 : mu / 4 * dot (fun i => y i - x i) (fun i => y i - x i) ≤
        (1 - ftol) * -dot (fun i => y i - x i) pg := by linarith
    have h4 : 0 ≤ -dot (fun i => y i - x i) pg := by nlinarith
    have h5 : mu / 4 * dot (fun i => y i - x i) (fun i => y i - x i) ≤ -dot (fun i => y i - x i) pg := by nlinarith
    have h6 := mul_le_mul_of_nonneg_left h5 hf0.le
    calc _ = ftol * (mu / 4 * dot (fun i => y i - x i) (fun i => y i - x i)) := by ring
      _ ≤ _ := by linarith
  · obtain ⟨i, hi⟩ : ∃ i, l * P / n ≤ -(d i * pg i) := by
      by_contra hn'
      push Not at hn'
      have h1 : ∑ i, -(d i * pg i) < ∑ _i : Fin n, l * P / n :=
        sum_lt_sum_of_nonempty ⟨⟨0, hn⟩, mem_univ _⟩ fun i _ => hn' i
      rw [sum_const, card_univ, Fintype.card_fin, nsmul_eq_mul, mul_div_cancel₀ _ hnK.ne', sum_neg_distrib] at h1
      have e : dot pg d = ∑ i, d i * pg i := by rw [dot_comm]; rfl
      rw [e] at hlo
      linarith
    have hq0 : 0 < -(d i * pg i) := lt_of_lt_of_le (by positivity) hi
    rcases move_cases (x := x i) ha (hd i) with hm | ⟨hm, hx, hdi, hxp, _⟩
    · left
      have hlen : owlLength ftol mu L m n ≤ a := by
        rcases hrej with rfl | hrej
        · exact min_le_left _ _
        · refine (min_le_right _ _).trans ?_
          have h2a : 0 < 2 * a := by linarith
          set z : Fin n → K := fun i => move (x i) (d i) (pg i) (2 * a) with hz
          have h1 := penalised_above hG hF h2a hall x d pg hpg hd z rfl
          have h2 : (1 - ftol) * -dot (fun i => z i - x i) pg < L * dot (fun i => z i - x i) (fun i => z i - x i) := by
            linarith
          have h3 : dot (fun i => z i - x i) (fun i => z i - x i) ≤ (2 * a) ^ 2 * dot d d := by
            unfold dot
            rw [mul_sum]
            refine sum_le_sum fun j _ => ?_
            have := move_abs (x := x j) h2a (hd j)
            have h4 := mul_self_le_mul_self (abs_nonneg _) this
            rw [abs_mul_abs_self] at h4
            calc _ ≤ _ := h4
              _ = (2 * a) ^ 2 * (|d j| * |d j|) := by ring
              _ = _ := by rw [abs_mul_abs_self]
          have h5 : a * (l * P / n) ≤ -dot (fun i => z i - x i) pg := by
            have h6 := move_double ha (hd i) hm
            have h7 : -((z i - x i) * pg i) ≤ ∑ j, -((z j - x j) * pg j) :=
              single_le_sum (f := fun j => -((z j - x j) * pg j))
                (fun j _ => neg_nonneg.2 (hdesc _ h2a j)) (mem_univ i)
            rw [sum_neg_distrib] at h7
            have h8 := mul_le_mul_of_nonneg_left hi ha.le
            exact h8.trans (h6.trans h7)
          have h9 : (1 - ftol) * (a * (l * P / n)) < L * ((2 * a) ^ 2 * (U ^ 2 * P)) := by
            have g1 := mul_le_mul_of_nonneg_left h5 (show 0 ≤ 1 - ftol by linarith)
            have g2 := mul_le_mul_of_nonneg_left h3 hL0.le
            have g3 := mul_le_mul_of_nonneg_left hup (show 0 ≤ L * (2 * a) ^ 2 by positivity)
            calc _ ≤ _ := g1
              _ < _ := h2
              _ ≤ _ := g2
              _ = L * (2 * a) ^ 2 * dot d d := by ring
              _ ≤ _ := g3
              _ = _ := by ring
          rw [div_le_iff₀ (by positivity)]
          have h10 : (1 - ftol) * (a * (l * P / n)) = ((1 - ftol) * l) * (a * P / n) := by ring
          have h11 : L * ((2 * a) ^ 2 * (U ^ 2 * P)) = (a * (4 * n * L * U ^ 2)) * (a * P / n) := by
            field_simp
            ring
          rw [h10, h11] at h9
          exact (lt_of_mul_lt_mul_right h9 (by positivity)).le
      have h1 : a * (l * P / n) ≤ -dot (fun i => y i - x i) pg := by
        have h7 : -((y i - x i) * pg i) ≤ ∑ j, -((y j - x j) * pg j) :=
          single_le_sum (f := fun j => -((y j - x j) * pg j))
            (fun j _ => neg_nonneg.2 (by rw [hy]; exact hdesc a ha j)) (mem_univ i)
        rw [sum_neg_distrib] at h7
        have h8 := mul_le_mul_of_nonneg_left hi ha.le
        have h9 : -((y i - x i) * pg i) = a * -(d i * pg i) := by
          rw [hy]; beta_reduce; rw [hm]; ring
        rw [h9] at h7
        exact h8.trans h7
      have h2 : l * eps ^ 2 / n ≤ l * P / n := by gcongr
      have h3 : owlLength ftol mu L m n * (l * eps ^ 2 / n) ≤ a * (l * P / n) :=
        mul_le_mul hlen h2 (by positivity) ha.le
      have h4 := mul_le_mul_of_nonneg_left (h3.trans h1) hf0.le
      unfold owlGain
      rw [← hl]
      calc _ = ftol * (owlLength ftol mu L m n * (l * eps ^ 2 / n)) := by ring
        _ ≤ _ := h4
        _ ≤ _ := by linarith
    · right
      have hs : owlSlope eps mu L m n ≤ |pg i| := by
        unfold owlSlope
        rw [← hl, ← hU]
        apply le_of_sq_le_sq _ (abs_nonneg _)
        rw [sq_abs, div_pow, div_le_iff₀ (by positivity)]
        have h1 : (l * P / n) ^ 2 ≤ pg i ^ 2 * (U ^ 2 * P) := by
          have g1 := pow_le_pow_left₀ (show 0 ≤ l * P / n by positivity) hi 2
          have g2 : d i ^ 2 ≤ dot d d := by
            rw [sq]
            exact single_le_sum (f := fun j => d j * d j) (fun j _ => mul_self_nonneg _) (mem_univ i)
          have g3 := mul_le_mul_of_nonneg_left (g2.trans hup) (sq_nonneg (pg i))
          calc _ ≤ _ := g1
            _ = pg i ^ 2 * d i ^ 2 := by ring
            _ ≤ _ := g3
        have h2 : (l * P / n) ^ 2 = (l ^ 2 * P / n ^ 2) * P := by ring
        have h3 : pg i ^ 2 * (U ^ 2 * P) = (pg i ^ 2 * U ^ 2) * P := by ring
        rw [h2, h3] at h1
        have h4 := le_of_mul_le_mul_right h1 hP0
        rw [div_le_iff₀ (by positivity)] at h4
        have h5 := mul_le_mul_of_nonneg_left hgg.le (sq_nonneg l)
        calc _ = l ^ 2 * eps ^ 2 := by ring
          _ ≤ _ := h5
          _ ≤ _ := h4
          _ = _ := by ring
      refine ⟨i, hall i, by rw [hy]; exact hm, ?_⟩
      obtain ⟨p1, p2, _⟩ := pseudo_cases (x := x) (g := G x) (c := c) (hall i)
      rw [← hpg] at p1 p2
      rcases lt_or_gt_of_ne hx with hx' | hx'
      · right
        have : pg i < 0 := by nlinarith
        rw [abs_of_neg this, p2 hx'] at hs
        exact ⟨hx', by linarith⟩
      · left
        have : 0 < pg i := (mul_pos_iff_of_pos_left hx').1 hxp
        rw [abs_of_pos this, p1 hx'] at hs
        exact ⟨hx', hs⟩
  · rw [hy] at hi
    rcases (move_sign ha (hd i)).1 hi with h | ⟨h1, h2⟩
    · exact .inl h
    · obtain ⟨_, _, p3⟩ := pseudo_cases (x := x) (g := G x) (c := c) (hall i)
      rw [← hpg] at p3
      rcases p3 h1 with ⟨h3, h4⟩ | ⟨h3, h4⟩ | h3
      · exact .inr ⟨h1, h4.le⟩
      · rw [h3] at h2; exact absurd h2 h4.not_gt
      · rw [h3] at h2; exact absurd h2 (lt_irrefl _)
  · rw [hy] at hi
    rcases (move_sign ha (hd i)).2 hi with h | ⟨h1, h2⟩
    · exact .inl h
    · obtain ⟨_, _, p3⟩ := pseudo_cases (x := x) (g := G x) (c := c) (hall i)
      rw [← hpg] at p3
      rcases p3 h1 with ⟨h3, h4⟩ | ⟨h3, h4⟩ | h3
      · rw [h3] at h2; exact absurd h2 h4.not_gt
      · exact .inr ⟨h1, h4.le⟩
      · rw [h3] at h2; exact absurd h2 (lt_irrefl _)

/-! ### The run -/

/-- An accepted trial is the first one or the trial before, with twice the step, was rejected. -/
theorem owlqnLoop_halving (env : Env n σ K) (p : Par K) (xp pg wp s : Fin n → K) (finit : K) :
    ∀ (rem count : Nat) (stp : K) (tr : List (Fin n → K)),
      let r := owlqnLoop env p xp pg wp s finit rem count stp tr
      0 ≤ r.ret → r.step = stp ∨
        finit + p.ftol * dot (fun i => project (vecadd xp s (2 * r.step)) wp p.start p.stop i - xp i) pg <
          obj env p (project (vecadd xp s (2 * r.step)) wp p.start p.stop) := by
  intro rem
  induction rem with
  | zero => intro count stp tr r h; exact .inl rfl
  | succ rem ih =>
    intro count stp tr
    have hv : ∀ x : Fin n → K, (vsum fun i => (x i - xp i) * pg i) = dot (fun i => x i - xp i) pg :=
      fun x => vsum_eq _
    simp only [owlqnLoop, hv, x1norm_eq]
    split_ifs with h1 h2 h3 h4
    · exact fun _ => .inl rfl
    · exact fun _ => .inl rfl
    · exact fun _ => .inl rfl
    · exact fun _ => .inl rfl
    · intro h
      right
      rcases ih (count + 1) (stp * const 1 2) _ h with h5 | h5
      · have e : 2 * (owlqnLoop env p xp pg wp s finit rem (count + 1) (stp * const 1 2)
          (project (vecadd xp s stp) wp p.start p.stop :: tr)).step = stp := by
          rw [h5]; simp [const]; ring
        rw [e]
        have := not_le.1 h1
        unfold obj penalised
        rw [mul_comm p.c]
        exact this
      · exact h5

/-- The direction with a penalty: it goes down at least proportionally to the pseudo-gradient, and is not
    longer than a multiple of it. -/
theorem owl_direction {env : Env n σ K} (hsq : IsSqrt env.sqrt) {mu L : K}
    (hG : StrongSmooth (fun x => (env.eval x).2) mu L) {p : Par K} (hc : p.c ≠ 0) (hm : 1 ≤ p.m)
    {x0 : Fin n → K} {cb : σ} {s : St n σ K} (h : Reach env p x0 cb s) :
    dot s.pg s.d ≤ - (descent mu L p.m.toNat * dot s.pg s.pg) ∧
      dot s.d s.d ≤ stretch mu L p.m.toNat ^ 2 * dot s.pg s.pg := by
  obtain ⟨hck, hl, _⟩ := reach_loop h
  have hcur : Curved env p := .inr ⟨.inl hc, fun x y hxy => strict_of_strong hG hxy⟩
  obtain ⟨_, _, hpos⟩ := C85_descent_partial env hsq.zero (fun _ => hsq.pos) p hm hcur x0 cb s h _ rfl
  have hgood := pairs_good hG hl hpos
  have hgg := dot_nonneg s.pg
  have hc' : (fillEnd n p).c ≠ 0 := by rw [fillEnd_eq]; exact hc
  unfold descent stretch
  have hU1 : 1 ≤ max 1 (upper mu L p.m.toNat) := le_max_left _ _
  by_cases hk : s.reports = []
  · have hd : s.d = fun i => - s.pg i := by
      cases h with
      | start =>
        show (fun i => - effGrad (fillEnd n p) _ _ i) = fun i => - (start env (fillEnd n p) x0 cb).pg i
        unfold effGrad
        rw [if_neg (fun h => hc' (feq_iff.1 h))]
        rfl
      | next hr hi =>
        obtain ⟨_, _, _, pf, cb', rfl⟩ := iterate_inl hi
        cases hk
    have h1 : dot s.pg s.d = - dot s.pg s.pg := by
      rw [hd]; unfold dot; rw [← sum_neg_distrib]; exact sum_congr rfl fun i _ => by ring
    have h2 : dot s.d s.d = dot s.pg s.pg := by
      rw [hd]; exact sum_congr rfl fun i _ => by ring
    rw [h1, h2]
    have h3 : min 1 (lower mu L p.m.toNat) ≤ 1 := min_le_left _ _
    have h4 : 1 ≤ max 1 (upper mu L p.m.toNat) ^ 2 := one_le_pow₀ hU1
    exact ⟨neg_le_neg (by nlinarith), by nlinarith⟩
  · obtain ⟨hlen, hd⟩ := C68_memory env p x0 cb s h hm hk (fillEnd n p).stop (by rw [fillEnd_eq])
    set C := corrections (s.reports.map (fun q => (q.x, q.g)) ++ [(x0, (env.eval x0).2)]) with hC
    have hne : C ≠ [] := by
      intro h0
      rw [h0] at hlen
      exact hk (List.length_eq_zero_iff.1 hlen.symm)
    have hpg : pseudoGradient s.x s.g p.c p.start (fillEnd n p).stop = s.pg := by
      rw [hl.inv.pg hc', fillEnd_eq]
    rw [if_neg hc, hpg] at hd
    set D := twoLoop (scale C) (C.take p.m.toNat) (fun i => - s.pg i) with hD
    obtain ⟨hs1, hs2⟩ := scale_bounds hG.mu_pos hG.L_pos hne hgood
    have hgood' : ∀ pr ∈ C.take p.m.toNat, GoodPair mu L pr := fun pr hpr =>
      hgood pr (List.mem_of_mem_take hpr)
    have hle : (C.take p.m.toNat).length ≤ p.m.toNat := List.length_take_le ..
    have h1 := twoLoop_lower hG.mu_pos hG.L_pos hs1 _ hgood' (fun i => - s.pg i)
    have h1' := twoLoop_upper hG.mu_pos hs2 _ hgood' (fun i => - s.pg i)
    have h2 := twoLoop_norm (upper_pos (L := L) hG.mu_pos _) (C.take p.m.toNat)
      (fun q => (mul_nonneg (lower_pos hG.mu_pos hG.L_pos _).le (dot_nonneg q)).trans
        (twoLoop_lower hG.mu_pos hG.L_pos hs1 _ hgood' q))
      (fun q => twoLoop_upper hG.mu_pos hs2 _ hgood' q) (fun i => - s.pg i)
    rw [← hD] at h1 h1' h2
    have e1 : dot (fun i => - s.pg i) (fun i => - s.pg i) = dot s.pg s.pg := sum_congr rfl fun i _ => by ring
    have e2 : dot (fun i => - s.pg i) D = - dot s.pg D := by
      unfold dot; rw [← sum_neg_distrib]; exact sum_congr rfl fun i _ => by ring
    rw [e1, e2] at h1 h1'
    rw [e2] at h2
    have h5 : mu ≤ L := by
      obtain ⟨pr, hpr⟩ := List.exists_mem_of_ne_nil C hne
      have h6 := (hgood pr hpr).ss hG.mu_pos
      have h7 := (hgood pr hpr).lip
      have h8 : mu ^ 2 ≤ L ^ 2 := le_of_mul_le_mul_right (h6.trans h7) (hgood pr hpr).pos
      exact le_of_sq_le_sq h8 hG.L_pos.le
    have hdd : dot s.d s.d ≤ dot D D := by
      refine sum_le_sum fun i _ => ?_
      rw [hd i]
      split_ifs
      · rw [zero_mul]; exact mul_self_nonneg _
      · exact le_rfl
    have hpd : dot s.pg s.d ≤ dot s.pg D := by
      refine sum_le_sum fun i _ => ?_
      rw [hd i]
      split_ifs with h
      · rw [mul_zero, mul_comm]; exact h.2.2
      · exact le_rfl
    have h3 := mul_le_mul_of_nonneg_right
      ((min_le_right 1 (lower mu L p.m.toNat)).trans (lower_anti hG.mu_pos hG.L_pos hle)) hgg
    refine ⟨by linarith, hdd.trans (h2.trans ?_)⟩
    set u := upper mu L (C.take p.m.toNat).length with hu
    have hu0 : 0 < u := upper_pos hG.mu_pos _
    have huU : u ≤ max 1 (upper mu L p.m.toNat) := (upper_mono hG.mu_pos h5 hle).trans (le_max_right _ _)
    calc u * -dot s.pg D ≤ u * (u * dot s.pg s.pg) := mul_le_mul_of_nonneg_left h1' hu0.le
      _ = u ^ 2 * dot s.pg s.pg := by ring
      _ ≤ _ := mul_le_mul_of_nonneg_right (pow_le_pow_left₀ hu0.le huU 2) hgg

/-- The pseudo-gradient of a state at the head of the loop is not small. -/
theorem owl_slope {env : Env n σ K} (hsq : IsSqrt env.sqrt) {p : Par K} (hc : p.c ≠ 0)
    (he : 0 < p.epsilon) {x0 : Fin n → K} {cb : σ} {s : St n σ K} (h : Reach env p x0 cb s) :
    p.epsilon ^ 2 < dot s.pg s.pg := by
  have key : ∀ (x g : Fin n → K), ¬ converged p (vec2norm env.sqrt x) (vec2norm env.sqrt g) →
      p.epsilon ^ 2 < dot g g := by
    intro x g hn
    unfold converged vec2norm at hn
    rw [vecdot_eq, vecdot_eq, not_le] at hn
    obtain ⟨h1, h2⟩ := hsq _ (dot_nonneg g)
    have hx : (1 : K) ≤ if env.sqrt (dot x x) < 1 then 1 else env.sqrt (dot x x) := by
      split_ifs with h
      · exact le_rfl
      · exact not_lt.1 h
    rw [lt_div_iff₀ (lt_of_lt_of_le one_pos hx)] at hn
    have h3 : p.epsilon < env.sqrt (dot g g) := lt_of_le_of_lt (by nlinarith) hn
    nlinarith
  have hcf : ∀ a b, converged (fillEnd n p) a b ↔ converged p a b := by
    intro a b; rw [fillEnd_eq]; rfl
  have hef : ∀ a b : Fin n → K, effGrad (fillEnd n p) a b = b := by
    intro a b
    unfold effGrad
    rw [if_neg (by rw [fillEnd_eq]; exact fun h => hc (feq_iff.1 h))]
  cases h with
  | start hck ha =>
    refine key x0 _ fun hcv => ha ?_
    unfold already
    rw [hef, hcf]
    exact hcv
  | next hr hi =>
    obtain ⟨_, hnc, _, pf, cb', rfl⟩ := iterate_inl hi
    rw [hef, hcf] at hnc
    exact key _ _ hnc

/-- The first step has length at most `1 / epsilon`, the others start with 1. -/
theorem owl_step_le {env : Env n σ K} (hsq : IsSqrt env.sqrt) {p : Par K} (hc : p.c ≠ 0) (he : 0 < p.epsilon)
    {x0 : Fin n → K} {cb : σ} {s : St n σ K} (h : Reach env p x0 cb s) :
    s.step ≤ max 1 (1 / p.epsilon) ∧ (s.reports ≠ [] → s.step = 1) := by
  have hgg := owl_slope hsq hc he h
  cases h with
  | start hck ha =>
    refine ⟨?_, fun h => absurd rfl h⟩
    refine le_trans ?_ (le_max_right _ _)
    show 1 / vec2norm env.sqrt (start env (fillEnd n p) x0 cb).d ≤ _
    unfold vec2norm
    have hdd : dot (start env (fillEnd n p) x0 cb).d (start env (fillEnd n p) x0 cb).d =
        dot (start env (fillEnd n p) x0 cb).pg (start env (fillEnd n p) x0 cb).pg := by
      refine sum_congr rfl fun i _ => ?_
      have : (start env (fillEnd n p) x0 cb).d i = - (start env (fillEnd n p) x0 cb).pg i := by
        show - effGrad (fillEnd n p) _ _ i = _
        unfold effGrad
        rw [if_neg (by rw [fillEnd_eq]; exact fun h => hc (feq_iff.1 h))]
        rfl
      rw [this]; ring
    rw [vecdot_eq, hdd]
    obtain ⟨h1, h2⟩ := hsq _ (dot_nonneg (start env (fillEnd n p) x0 cb).pg)
    refine one_div_le_one_div_of_le he ?_
    nlinarith
  | next hr hi =>
    obtain ⟨_, _, _, pf, cb', rfl⟩ := iterate_inl hi
    exact ⟨le_max_left _ _, fun _ => rfl⟩

/-- Every iteration after the first. -/
theorem owl_iteration {env : Env n σ K} (hsq : IsSqrt env.sqrt) {mu L : K}
    (hG : StrongSmooth (fun x => (env.eval x).2) mu L)
    (hF : ConvexGrad (fun x => (env.eval x).1) (fun x => (env.eval x).2)) {p : Par K} (hc : p.c ≠ 0) (hm : 1 ≤ p.m)
    (hall : ∀ i : Fin n, Penalised p.start (fillEnd n p).stop i) (hf0 : 0 < p.ftol) (hf1 : p.ftol < 1)
    (he : 0 < p.epsilon) {x0 : Fin n → K} {cb : σ} {s : St n σ K} (h : Reach env p x0 cb s)
    (h1 : s.reports ≠ []) (h0 : 0 ≤ (lineSearch env (fillEnd n p) s).ret) :
    OwlStep (fun i => Penalised p.start (fillEnd n p).stop i) (obj env (fillEnd n p)) (fun x => (env.eval x).2) p.c (p.ftol * mu / 4)
      (owlGain p.ftol p.epsilon mu L p.m.toNat n) (owlSlope p.epsilon mu L p.m.toNat n)
      s.x (lineSearch env (fillEnd n p) s).x := by
  obtain ⟨hck, hl, _⟩ := reach_loop h
  have ok := ok_of_check hck
  have hc' : (fillEnd n p).c ≠ 0 := by rw [fillEnd_eq]; exact hc
  have hst : (fillEnd n p).start = p.start := by rw [fillEnd_eq]
  have hcc : (fillEnd n p).c = p.c := by rw [fillEnd_eq]
  have hft : (fillEnd n p).ftol = p.ftol := by rw [fillEnd_eq]
  have hg := lineSearch_good ok s h0
  obtain ⟨ha, hx, hf⟩ := hg.owl hc'
  obtain ⟨hd, hdd⟩ := owl_direction hsq hG hc hm h
  have hgg := owl_slope hsq hc he h
  have hpr : ∀ b, project (vecadd s.x s.d b) (fun i => if feq (s.x i) 0 then -s.pg i else s.x i)
      (fillEnd n p).start (fillEnd n p).stop = fun i => move (s.x i) (s.d i) (s.pg i) b := by
    intro b
    funext i
    unfold project
    rw [if_pos (show _ ∧ _ from (by rw [hst]; exact hall i))]
    rfl
  have hhalf : (lineSearch env (fillEnd n p) s).step = 1 ∨ s.fx + p.ftol *
      dot (fun i => move (s.x i) (s.d i) (s.pg i) (2 * (lineSearch env (fillEnd n p) s).step) - s.x i) s.pg <
      obj env (fillEnd n p) (fun i => move (s.x i) (s.d i) (s.pg i) (2 * (lineSearch env (fillEnd n p) s).step)) := by
    have hs1 := (owl_step_le hsq hc he h).2 h1
    have := owlqnLoop_halving env (fillEnd n p) s.x s.pg (fun i => if feq (s.x i) 0 then -s.pg i else s.x i) s.d
      s.fx (fillEnd n p).maxLinesearch.toNat 0 s.step []
    have e : lineSearch env (fillEnd n p) s = owlqnLoop env (fillEnd n p) s.x s.pg
        (fun i => if feq (s.x i) 0 then -s.pg i else s.x i) s.d s.fx (fillEnd n p).maxLinesearch.toNat 0 s.step [] := by
      unfold lineSearch backtrackingOwlqn
      rw [if_neg (fun h => hc' (feq_iff.1 h)), if_neg (by rw [hs1]; exact not_le.2 one_pos)]
    simp only [← e, hpr, hft] at this
    rw [hs1] at this
    exact this h0
  rw [hpr] at hx
  rw [hg.f, hl.inv.f] at hf
  rw [hl.inv.f] at hhalf
  have hpg := hl.inv.pg hc'
  rw [hl.inv.g, hcc, hst] at hpg
  have key := owl_step (F := fun x => (env.eval x).1) (G := fun x => (env.eval x).2) hG hF (c := p.c)
    (by have := ok.c; rwa [hcc] at this) ha hall hf0 hf1 he p.m.toNat s.x s.d s.pg hpg
    (fun i => hl.inv.d hc' i (by rw [hst]; exact hall i)) hd hdd hgg (lineSearch env (fillEnd n p) s).x hx
  unfold obj at hf hhalf ⊢
  rw [hcc, hst] at hf hhalf ⊢
  rw [hft] at hf
  exact key hf hhalf

/-- The points of a run with `r` iterations that is at `x`: the first iteration does not increase the objective,
    the others are related by `R`. -/
def Chain (Φ : (Fin n → K) → K) (x0 : Fin n → K) (R : (Fin n → K) → (Fin n → K) → Prop) (r : Nat) (x : Fin n → K) :
    Prop :=
  ∃ X : Nat → Fin n → K, X r = x ∧ X 0 = x0 ∧ Φ (X 1) ≤ Φ x0 ∧ ∀ k, 1 ≤ k → k < r → R (X k) (X (k + 1))

theorem chain_next {Φ : (Fin n → K) → K} {x0 : Fin n → K} {R : (Fin n → K) → (Fin n → K) → Prop} {r : Nat}
    {x y : Fin n → K} (h : Chain Φ x0 R r x) (h0 : Φ y ≤ Φ x) (h1 : r ≠ 0 → R x y) : Chain Φ x0 R (r + 1) y := by
  obtain ⟨X, hX, hX0, hX1, hXR⟩ := h
  refine ⟨fun k => if k ≤ r then X k else y, ?_, ?_, ?_, ?_⟩
  · simp only [if_neg (show ¬ r + 1 ≤ r by omega)]
  · simp only [if_pos (Nat.zero_le _), hX0]
  · by_cases h1 : 1 ≤ r
    · simp only [if_pos h1]; exact hX1
    · simp only [if_neg h1]
      have h2 : r = 0 := by omega
      rw [h2, hX0] at hX
      rw [hX]
      exact h0
  · intro k hk1 h2
    beta_reduce
    rw [if_pos (by omega : k ≤ r)]
    by_cases h3 : k + 1 ≤ r
    · rw [if_pos h3]; exact hXR k hk1 (by omega)
    · have h4 : k = r := by omega
      rw [if_neg h3, h4, hX]
      exact h1 (by omega)

theorem owl_mono {env : Env n σ K} {p : Par K}
    (hall : ∀ i : Fin n, Penalised p.start (fillEnd n p).stop i) {x0 : Fin n → K} {cb : σ} {s : St n σ K}
    (h : Reach env p x0 cb s) (h0 : 0 ≤ (lineSearch env (fillEnd n p) s).ret) :
    obj env (fillEnd n p) (lineSearch env (fillEnd n p) s).x ≤ obj env (fillEnd n p) s.x := by
  obtain ⟨hck, hl, _⟩ := reach_loop h
  have ok := ok_of_check hck
  have hg := lineSearch_good ok s h0
  have := step_decreases ok (.inr (.inl (fun i => by rw [show (fillEnd n p).start = p.start by rw [fillEnd_eq]]; exact hall i)))
    hl.inv hg
  rwa [hg.f, hl.inv.f] at this

/-- The points of a run. -/
theorem owl_chain {env : Env n σ K} {p : Par K}
    {x0 : Fin n → K} {cb : σ} {R : (Fin n → K) → (Fin n → K) → Prop}
    (hmono : ∀ s, Reach env p x0 cb s → 0 ≤ (lineSearch env (fillEnd n p) s).ret →
      obj env (fillEnd n p) (lineSearch env (fillEnd n p) s).x ≤ obj env (fillEnd n p) s.x)
    (hR : ∀ s, Reach env p x0 cb s → s.reports ≠ [] → 0 ≤ (lineSearch env (fillEnd n p) s).ret →
      R s.x (lineSearch env (fillEnd n p) s).x)
    {s : St n σ K} (h : Reach env p x0 cb s) :
    Chain (obj env (fillEnd n p)) x0 R s.reports.length s.x := by
  induction h with
  | start hck _ =>
    exact ⟨fun _ => x0, rfl, rfl, le_rfl, fun k h1 h2 => by
      change k < 0 at h2; omega⟩
  | @next s s' hr hi ih =>
    obtain ⟨h0, _, _, pf, cb', rfl⟩ := iterate_inl hi
    exact chain_next ih (hmono s hr h0) fun h => hR s hr (fun h' => h (by rw [h']; rfl)) h0

theorem owl_end {env : Env n σ K} {p : Par K}
    {x0 : Fin n → K} {cb : σ} {R : (Fin n → K) → (Fin n → K) → Prop}
    (hmono : ∀ s, Reach env p x0 cb s → 0 ≤ (lineSearch env (fillEnd n p) s).ret →
      obj env (fillEnd n p) (lineSearch env (fillEnd n p) s).x ≤ obj env (fillEnd n p) s.x)
    (hR : ∀ s, Reach env p x0 cb s → s.reports ≠ [] → 0 ≤ (lineSearch env (fillEnd n p) s).ret →
      R s.x (lineSearch env (fillEnd n p) s).x)
    {s : St n σ K} {o : Out n K} (h : Run env (fillEnd n p) s o) (hr : Reach env p x0 cb s) :
    ∃ x, Chain (obj env (fillEnd n p)) x0 R o.reports.length x := by
  induction h with
  | next h _ ih => exact ih (.next hr h)
  | @done s o h =>
    have hc := owl_chain hmono hR hr
    rcases iterate_inr h with ⟨_, rfl⟩ | ⟨h0, _, _, hrep, _⟩
    · exact ⟨_, hc⟩
    · rw [hrep]
      exact ⟨_, chain_next hc (hmono s hr h0) fun h => hR s hr (fun h' => h (by rw [h']; rfl)) h0⟩

/-- The number of iterations of a run. -/
theorem chain_count {S : Fin n → Prop} {Φ : (Fin n → K) → K} {G : (Fin n → K) → Fin n → K} {c κ δ δ1 L B : K} (hκ : 0 < κ)
    (hL : 0 < L) (hδ : 0 ≤ δ) (hδ1 : 0 < δ1)
    (hlip : ∀ x y, dot (fun i => G x i - G y i) (fun i => G x i - G y i) ≤
      L ^ 2 * dot (fun i => x i - y i) (fun i => x i - y i)) (hB : ∀ x, B ≤ Φ x)
    {x0 x : Fin n → K} {r : Nat} (h : Chain Φ x0 (OwlStep S Φ G c κ δ δ1) r x) :
    ((r : K) - 1 - n) * min δ (κ * δ1 ^ 2 / (L ^ 2 * (n + 1))) ≤ (n + 1) * (Φ x0 - B) := by
  obtain ⟨X, hX, hX0, hX1, hXR⟩ := h
  have hn1 : (0 : K) < n + 1 := by positivity
  have hD0 : 0 ≤ min δ (κ * δ1 ^ 2 / (L ^ 2 * (n + 1))) := le_min hδ (by positivity)
  rcases Nat.eq_zero_or_pos r with rfl | hr
  · have h1 := mul_nonneg hn1.le (sub_nonneg.2 (hB x0))
    have h2 := mul_nonneg hn1.le hD0
    rw [Nat.cast_zero]
    linarith
  · have h1 := owl_count (S := S) (Φ := Φ) (c := c) hκ hL hδ hδ1 hlip (X := X) 1 (r - 1)
      (fun k hk hk' => hXR k hk (by omega))
    rw [show 1 + (r - 1) = r by omega, Nat.cast_sub hr, Nat.cast_one] at h1
    exact h1.trans (mul_le_mul_of_nonneg_left (by linarith [hB (X r)]) hn1.le)

theorem owlLength_pos {ftol mu L : K} (hf : ftol < 1) (hmu : 0 < mu) (hL : 0 < L) (m : Nat) (hn : 0 < n) :
    0 < owlLength ftol mu L m n := by
  have h1 := descent_pos hmu hL m
  have h2 : (0 : K) < stretch mu L m := lt_of_lt_of_le one_pos (le_max_left _ _)
  have h3 : (0 : K) < n := Nat.cast_pos.2 hn
  have h4 : 0 < 1 - ftol := by linarith
  unfold owlLength
  exact lt_min one_pos (by positivity)

theorem owlGain_pos {ftol eps mu L : K} (hf0 : 0 < ftol) (hf : ftol < 1) (he : 0 < eps) (hmu : 0 < mu) (hL : 0 < L)
    (m : Nat) (hn : 0 < n) : 0 < owlGain ftol eps mu L m n := by
  have h1 := descent_pos hmu hL m
  have h3 : (0 : K) < n := Nat.cast_pos.2 hn
  have h4 := owlLength_pos hf hmu hL m hn
  unfold owlGain
  positivity

theorem owlSlope_pos {eps mu L : K} (he : 0 < eps) (hmu : 0 < mu) (hL : 0 < L)
    (m : Nat) (hn : 0 < n) : 0 < owlSlope eps mu L m n := by
  have h1 := descent_pos hmu hL m
  have h2 : (0 : K) < stretch mu L m := lt_of_lt_of_le one_pos (le_max_left _ _)
  have h3 : (0 : K) < n := Nat.cast_pos.2 hn
  unfold owlSlope
  positivity

theorem owlDecrease_pos {ftol eps mu L : K} (hf0 : 0 < ftol) (hf : ftol < 1) (he : 0 < eps) (hmu : 0 < mu) (hL : 0 < L)
    (m : Nat) (hn : 0 < n) : 0 < owlDecrease ftol eps mu L m n := by
  have h1 := owlGain_pos hf0 hf he hmu hL m hn
  have h2 := owlSlope_pos he hmu hL m hn
  unfold owlDecrease
  exact lt_min h1 (by positivity)

/-- A failed search: too many trials, or too short a step. -/
theorem owlqnLoop_fails (env : Env n σ K) (p : Par K) (xp pg wp s : Fin n → K) (finit : K) :
    ∀ (rem count : Nat) (stp : K) (tr : List (Fin n → K)), 0 < stp → stp ≤ p.maxStep → 0 < rem →
      (p.maxLinesearch = (count + rem : Nat)) →
      let r := owlqnLoop env p xp pg wp s finit rem count stp tr
      r.ret < 0 → r.ret = ERR_MAXIMUMLINESEARCH ∨ (r.ret = ERR_MINIMUMSTEP ∧ 0 < p.minStep) := by
  intro rem
  induction rem with
  | zero => intro count stp tr _ _ h; exact absurd h (lt_irrefl _)
  | succ rem ih =>
    intro count stp tr hs hmax _ hm
    have hret : ¬ ((count : Int) + 1 < 0) := by omega
    simp only [owlqnLoop]
    split_ifs with h1 h2 h3 h4
    · exact fun h => absurd h hret
    · exact fun _ => .inr ⟨rfl, hs.trans h2⟩
    · exact absurd h3 (not_lt.2 hmax)
    · exact fun _ => .inl rfl
    · have hrem : 0 < rem := by
        by_contra h0
        apply h4
        rw [hm]
        push_cast
        omega
      have hhalf : stp * const 1 2 = stp / 2 := by simp [const]; ring
      rw [hhalf]
      exact ih (count + 1) (stp / 2) _ (by linarith) (by linarith) hrem (by rw [hm]; congr 1; omega)

/-- The search fails with its last code if all trials are rejected. -/
theorem owlqnLoop_stalls (env : Env n σ K) (p : Par K) (xp pg wp s : Fin n → K) (finit : K) (hmin : p.minStep = 0) :
    ∀ (rem count : Nat) (stp : K) (tr : List (Fin n → K)), 0 < stp → stp ≤ p.maxStep → 0 < rem →
      (p.maxLinesearch = (count + rem : Nat)) →
      (∀ k, k < rem → finit + p.ftol * dot (fun i => project (vecadd xp s (stp / 2 ^ k)) wp p.start p.stop i - xp i) pg <
          obj env p (project (vecadd xp s (stp / 2 ^ k)) wp p.start p.stop)) →
      (owlqnLoop env p xp pg wp s finit rem count stp tr).ret = ERR_MAXIMUMLINESEARCH := by
  intro rem
  induction rem with
  | zero => intro count stp tr _ _ h; exact absurd h (lt_irrefl _)
  | succ rem ih =>
    intro count stp tr hs hmax _ hm hrej
    have hv : ∀ x : Fin n → K, (vsum fun i => (x i - xp i) * pg i) = dot (fun i => x i - xp i) pg :=
      fun x => vsum_eq _
    have h0 := hrej 0 (Nat.succ_pos _)
    rw [pow_zero, div_one] at h0
    unfold obj penalised at h0
    simp only [owlqnLoop, hv, x1norm_eq]
    rw [if_neg (by rw [mul_comm _ p.c]; exact not_le.2 h0), if_neg (by rw [hmin]; exact hs.not_gt),
      if_neg (not_lt.2 hmax)]
    split_ifs with h4
    · rfl
    · have hrem : 0 < rem := by
        by_contra h0
        apply h4
        rw [hm]
        push_cast
        omega
      have hhalf : stp * const 1 2 = stp / 2 := by simp [const]; ring
      rw [hhalf]
      refine ih (count + 1) (stp / 2) _ (by linarith) (by linarith) hrem (by rw [hm]; congr 1; omega) fun k hk => ?_
      have := hrej (k + 1) (by omega)
      rwa [pow_succ', ← div_div] at this

/-- A point with a small pseudo-gradient is close to the minimiser of the penalised objective. -/
theorem owl_distance {G : (Fin n → K) → Fin n → K} {mu L c : K} (hG : StrongSmooth G mu L) (hc : 0 ≤ c)
    (start stop : Int) (x z : Fin n → K) (hz : FirstOrder c start stop z (G z)) :
    mu ^ 2 * dot (fun i => x i - z i) (fun i => x i - z i) ≤
      dot (pseudoGradient x (G x) c start stop) (pseudoGradient x (G x) c start stop) := by
  set pg := pseudoGradient x (G x) c start stop with hpg
  have h1 := hG.mono x z
  have h0 : dot (fun i => G x i - G z i) (fun i => x i - z i) ≤ dot pg (fun i => x i - z i) := by
    refine sum_le_sum fun i _ => ?_
    have hs := C63_min_norm hc start stop x (G x) i
    have hz := hz i
    rw [← hpg] at hs
    by_cases hi : Penalised start stop i
    · rw [if_pos hi] at hs hz
      have a1 := hs.1 (z i)
      have a2 : IsSubgrad c (z i) (G z i) 0 := by
        rw [isSubgrad_iff hc]
        refine ⟨fun h => ?_, fun h => ?_, fun h => ?_⟩
        · rw [hz.1 h]; ring
        · rw [hz.2.1 h]; ring
        · rw [zero_sub, abs_neg]; exact hz.2.2 h
      have a3 := a2 (x i)
      linarith
    · rw [if_neg hi] at hs hz
      beta_reduce
      rw [hs, hz, sub_zero]
  have h2 := cauchy pg (fun i => x i - z i)
  have h3 := dot_nonneg (fun i => x i - z i)
  rcases h3.eq_or_lt with h4 | h4
  · rw [← h4, mul_zero]; exact dot_nonneg _
  · have h5 := pow_le_pow_left₀ (mul_nonneg hG.mu_pos.le h3) (h1.trans h0) 2
    refine le_of_mul_le_mul_right ?_ h4
    nlinarith

end Verif.Lbfgs
