import Verif.Props.LbfgsLoop
import Verif.Spec.LbfgsDir
import Mathlib.LinearAlgebra.Matrix.Notation
/-! Helper lemmas for the search direction. -/
namespace Verif.Lbfgs
open Finset Spec Matrix
variable {n : Nat} {σ K : Type} [Field K] [LinearOrder K] [IsStrictOrderedRing K]

/-- The state after `k` iterations, if there are that many. -/
def stateAfter (env : Env n σ K) (p : Par K) : Nat → St n σ K → Option (St n σ K)
  | 0, s => some s
  | k + 1, s => match iterate env p s with
    | .inl s' => stateAfter env p k s'
    | .inr _ => none

theorem reach_of_steps {α : Type} {φ : St n σ K → α} (env : Env n σ K) (p : Par K) (x0 : Fin n → K) (cb : σ)
    (k : Nat) (a : α) (hc : check n p = none)
    (ha : ¬ already env (fillEnd n p) (start env (fillEnd n p) x0 cb))
    (h : (stateAfter env (fillEnd n p) k (start env (fillEnd n p) x0 cb)).map φ = some a) :
    ∃ s, Reach env p x0 cb s ∧ φ s = a := by
  have : ∀ k (s : St n σ K), Reach env p x0 cb s → (stateAfter env (fillEnd n p) k s).map φ = some a →
      ∃ s, Reach env p x0 cb s ∧ φ s = a := by
    intro k
    induction k with
    | zero => exact fun s hr h => ⟨s, hr, Option.some.inj h⟩
    | succ k ih =>
      intro s hr h
      unfold stateAfter at h
      split at h
      · rename_i s' hi
        exact ih s' (.next hr hi) h
      · cases h
  exact this k _ (.start hc ha) h

/-- The slots before position `T` of the ring hold the pairs `l`, newest first. -/
def Holds (m : Nat) (lm : List (Slot n K)) : Nat → List ((Fin n → K) × (Fin n → K)) → Prop
  | _, [] => True
  | T, pr :: l => 1 ≤ T ∧ (lm.getD ((T - 1) % m) Slot.empty).s = pr.1 ∧
      (lm.getD ((T - 1) % m) Slot.empty).y = pr.2 ∧
      (lm.getD ((T - 1) % m) Slot.empty).ys = dot pr.2 pr.1 ∧ Holds m lm (T - 1) l

theorem holds_congr {m : Nat} {lm lm' : List (Slot n K)} (J : Nat → Prop)
    (h : ∀ j, J j → (lm'.getD j Slot.empty).s = (lm.getD j Slot.empty).s ∧
      (lm'.getD j Slot.empty).y = (lm.getD j Slot.empty).y ∧
      (lm'.getD j Slot.empty).ys = (lm.getD j Slot.empty).ys) :
    ∀ (l : List ((Fin n → K) × (Fin n → K))) (T : Nat), (∀ i, i < l.length → J ((T - 1 - i) % m)) →
      Holds m lm T l → Holds m lm' T l := by
  intro l
  induction l with
  | nil => intro T _ _; trivial
  | cons pr l ih =>
    intro T hJ hh
    obtain ⟨h1, h2, h3, h4, h5⟩ := hh
    obtain ⟨e1, e2, e3⟩ := h ((T - 1) % m) (hJ 0 (Nat.succ_pos _))
    refine ⟨h1, e1.trans h2, e2.trans h3, e3.trans h4, ih _ (fun i hi => ?_) h5⟩
    have := hJ (i + 1) (Nat.succ_lt_succ hi)
    rwa [show T - 1 - (i + 1) = T - 1 - 1 - i by omega] at this

theorem holds_take {m : Nat} {lm : List (Slot n K)} :
    ∀ (l : List ((Fin n → K) × (Fin n → K))) (k T : Nat), Holds m lm T l → Holds m lm T (l.take k) := by
  intro l
  induction l with
  | nil => intro k T _; rw [List.take_nil]; trivial
  | cons pr l ih =>
    intro k T h
    cases k with
    | zero => trivial
    | succ k =>
      obtain ⟨h1, h2, h3, h4, h5⟩ := h
      exact ⟨h1, h2, h3, h4, ih k _ h5⟩

theorem mod_ne {m a b : Nat} (h : a < b) (hb : b - a < m) : a % m ≠ b % m := by
  intro he
  have h1 : (b - a) % m = 0 := by
    rw [← Nat.sub_mod_eq_zero_of_mod_eq he.symm]
  rw [Nat.mod_eq_of_lt hb] at h1
  omega

theorem loop2_succ (m : Nat) (lm : List (Slot n K)) :
    ∀ (b j : Nat) (d : Fin n → K), j < m →
      loop2 m lm (b + 1) j d = vecadd (loop2 m lm b j d) (lm.getD ((j + b) % m) Slot.empty).s
        ((lm.getD ((j + b) % m) Slot.empty).alpha -
          vecdot (lm.getD ((j + b) % m) Slot.empty).y (loop2 m lm b j d) /
            (lm.getD ((j + b) % m) Slot.empty).ys) := by
  intro b
  induction b with
  | zero =>
    intro j d hj
    have : (j + 0) % m = j := Nat.mod_eq_of_lt hj
    rw [this]
    rfl
  | succ b ih =>
    intro j d hj
    rw [loop2, ih _ _ (Nat.mod_lt _ (by omega)), Nat.mod_add_mod, show j + 1 + b = j + (b + 1) by omega]
    rfl

theorem getD_set (lm : List (Slot n K)) (i j : Nat) (x : Slot n K) (hi : i < lm.length) :
    (lm.set i x).getD j Slot.empty = if j = i then x else lm.getD j Slot.empty := by
  by_cases h : j = i
  · subst h
    rw [if_pos rfl, List.getD_eq_getElem?_getD, List.getElem?_set_self hi]
    rfl
  · rw [if_neg h, List.getD_eq_getElem?_getD, List.getElem?_set_ne (Ne.symm h), List.getD_eq_getElem?_getD]

/-- The two loops over the ring buffer are the recursion on the pairs it holds. -/
theorem loops_eq {m : Nat} (gamma : K) :
    ∀ (l : List ((Fin n → K) × (Fin n → K))) (T : Nat) (d : Fin n → K) (lm : List (Slot n K)),
      l.length ≤ m → l.length ≤ T → 0 < m → lm.length = m → Holds m lm T l →
      let r := loop1 m l.length (T % m) d lm
      r.1 = (T - l.length) % m ∧ r.2.2.length = m ∧
      (∀ j, (r.2.2.getD j Slot.empty).s = (lm.getD j Slot.empty).s ∧
        (r.2.2.getD j Slot.empty).y = (lm.getD j Slot.empty).y ∧
        (r.2.2.getD j Slot.empty).ys = (lm.getD j Slot.empty).ys) ∧
      (∀ j, (∀ i, i < l.length → j ≠ (T - 1 - i) % m) →
        r.2.2.getD j Slot.empty = lm.getD j Slot.empty) ∧
      loop2 m r.2.2 l.length r.1 (fun i => r.2.1 i * gamma) = twoLoop gamma l d := by
  intro l
  induction l with
  | nil =>
    intro T d lm _ _ _ hlen _
    exact ⟨rfl, hlen, fun j => ⟨rfl, rfl, rfl⟩, fun j _ => rfl, rfl⟩
  | cons pr l ih =>
    intro T d lm hm hT hm0 hlen hh
    obtain ⟨h1, h2, h3, h4, h5⟩ := hh
    rw [List.length_cons] at hm hT
    have hj : (T % m + m - 1) % m = (T - 1) % m := by
      rw [Nat.add_sub_assoc hm0, Nat.mod_add_mod, show T + (m - 1) = T - 1 + m by omega, Nat.add_mod_right]
    simp only [List.length_cons, loop1]
    rw [hj]
    set j0 := (T - 1) % m with hj0
    have hj0m : j0 < lm.length := by rw [hlen]; exact Nat.mod_lt _ hm0
    set it := lm.getD j0 Slot.empty with hit
    set al := vecdot it.s d / it.ys with hal
    set lm1 := lm.set j0 { it with alpha := al } with hlm1
    have hlen1 : lm1.length = m := by rw [hlm1, List.length_set, hlen]
    have hsame1 : ∀ j, (lm1.getD j Slot.empty).s = (lm.getD j Slot.empty).s ∧
        (lm1.getD j Slot.empty).y = (lm.getD j Slot.empty).y ∧
        (lm1.getD j Slot.empty).ys = (lm.getD j Slot.empty).ys := by
      intro j
      rw [hlm1, getD_set _ _ _ _ hj0m]
      split_ifs with h
      · rw [h, ← hit]; exact ⟨rfl, rfl, rfl⟩
      · exact ⟨rfl, rfl, rfl⟩
    have hh1 : Holds m lm1 (T - 1) l :=
      holds_congr (fun _ => True) (fun j _ => hsame1 j) l _ (fun _ _ => trivial) h5
    obtain ⟨r1, r2, r3, r4, r5⟩ := ih (T - 1) (vecadd d it.y (-al)) lm1 (by omega) (by omega) hm0 hlen1 hh1
    refine ⟨?_, r2, fun j => ?_, fun j hjne => ?_, ?_⟩
    · rw [r1]; congr 1; omega
    · obtain ⟨a1, a2, a3⟩ := r3 j
      obtain ⟨b1, b2, b3⟩ := hsame1 j
      exact ⟨a1.trans b1, a2.trans b2, a3.trans b3⟩
    · rw [r4 j fun i hi => ?_, hlm1, getD_set _ _ _ _ hj0m, if_neg]
      · exact hjne 0 (Nat.succ_pos _)
      · have := hjne (i + 1) (Nat.succ_lt_succ hi)
        rwa [show T - 1 - (i + 1) = T - 1 - 1 - i by omega] at this
    · rw [loop2_succ _ _ _ _ _ (by rw [r1]; exact Nat.mod_lt _ hm0), r5]
      have hlast : ((loop1 m l.length j0 (vecadd d it.y (-al)) lm1).1 + l.length) % m = j0 := by
        rw [r1, Nat.mod_add_mod, show T - 1 - l.length + l.length = T - 1 by omega]
      rw [hlast, r4 j0 fun i hi => ?_]
      · rw [hlm1, getD_set _ _ _ _ hj0m, if_pos rfl]
        simp only
        obtain ⟨sv, yv⟩ := pr
        simp only at h2 h3 h4
        have hal' : al = dot sv d / dot yv sv := by rw [hal, vecdot_eq, h2, h4]
        have hv : vecadd d it.y (-al) = fun i => d i - dot sv d / dot yv sv * yv i := by
          funext i
          unfold vecadd
          rw [h3, hal']
          ring
        rw [hv, h2, h3, h4, hal', vecdot_eq]
        funext i
        rfl
      · rw [hj0]
        exact (mod_ne (by omega) (by omega)).symm

/-- The points and gradients of a state, newest first. -/
def pts (env : Env n σ K) (x0 : Fin n → K) (reports : List (Report n K)) :
    List ((Fin n → K) × (Fin n → K)) :=
  reports.map (fun q => (q.x, q.g)) ++ [(x0, (env.eval x0).2)]

/-- The invariant of the memory. -/
structure Mem (env : Env n σ K) (p : Par K) (x0 : Fin n → K) (s : St n σ K) : Prop where
  len : s.lm.length = p.m.toNat
  stop : s.stop = (s.k - 1) % p.m.toNat
  holds : Holds p.m.toNat s.lm (s.k - 1) ((corrections (pts env x0 s.reports)).take p.m.toNat)
  head : (pts env x0 s.reports).head? = some (s.x, s.g)

theorem corrections_length : ∀ l : List ((Fin n → K) × (Fin n → K)), (corrections l).length = l.length - 1
  | [] => rfl
  | [_] => rfl
  | a :: b :: l => by
    have := corrections_length (b :: l)
    simp only [corrections, List.length_cons] at this ⊢
    omega

/-- After an accepted search the two loops compute the recursion on the newest pairs. -/
theorem newDirection_eq {env : Env n σ K} {p : Par K} (hm : 1 ≤ p.m) {x0 : Fin n → K} {s : St n σ K}
    (hl : s.k = s.reports.length + 1) (hmem : Mem env p x0 s) (r : LsOut n K) (pg : Fin n → K)
    (q : Report n K) (hq : q.x = r.x ∧ q.g = r.g) :
    let C := corrections (pts env x0 (q :: s.reports))
    (newDirection p s r pg).1 = twoLoop (scale C) (C.take p.m.toNat) (fun i => - effGrad p r.g pg i) ∧
      (newDirection p s r pg).2.length = p.m.toNat ∧
      Holds p.m.toNat (newDirection p s r pg).2 s.k (C.take p.m.toNat) := by
  intro C
  have hm0 : 0 < p.m.toNat := by omega
  set sv : Fin n → K := fun i => r.x i - s.x i with hsv
  set yv : Fin n → K := fun i => r.g i - s.g i with hyv
  have hC : C = (sv, yv) :: corrections (pts env x0 s.reports) := by
    have hh := hmem.head
    show corrections ((q.x, q.g) :: pts env x0 s.reports) = _
    rcases hp : pts env x0 s.reports with _ | ⟨a, l⟩
    · rw [hp] at hh; cases hh
    · rw [hp] at hh
      have ha : a = (s.x, s.g) := Option.some.inj hh
      rw [ha, hq.1, hq.2]
      rfl
  obtain ⟨m', hm'⟩ : ∃ m', p.m.toNat = m' + 1 := ⟨p.m.toNat - 1, by omega⟩
  have htake : C.take p.m.toNat = (sv, yv) :: (corrections (pts env x0 s.reports)).take m' := by
    rw [hC, hm']; rfl
  have hClen : (C.take p.m.toNat).length = if p.m ≤ (s.k : Int) then p.m.toNat else s.k := by
    rw [List.length_take, corrections_length]
    simp only [pts, List.length_append, List.length_map, List.length_cons, List.length_nil]
    rw [hl]
    split_ifs with h <;> omega
  have hstop : s.stop < s.lm.length := by rw [hmem.len, hmem.stop]; exact Nat.mod_lt _ hm0
  have hslen : (storeLm s r).length = p.m.toNat := by
    unfold storeLm; rw [List.length_set, hmem.len]
  have hget : ∀ j, (storeLm s r).getD j Slot.empty = if j = s.stop then
      { (s.lm.getD s.stop Slot.empty) with s := sv, y := yv, ys := vecdot yv sv } else
      s.lm.getD j Slot.empty := fun j => by
    unfold storeLm; exact getD_set _ _ _ _ hstop
  have hholds : Holds p.m.toNat (storeLm s r) s.k (C.take p.m.toNat) := by
    rw [htake]
    have hslot : (storeLm s r).getD ((s.k - 1) % p.m.toNat) Slot.empty =
        { (s.lm.getD s.stop Slot.empty) with s := sv, y := yv, ys := vecdot yv sv } := by
      rw [hget, if_pos hmem.stop.symm]
    refine ⟨by omega, by rw [hslot], by rw [hslot], by rw [hslot]; exact vecdot_eq _ _, ?_⟩
    have h0 := holds_take _ m' _ hmem.holds
    rw [List.take_take, show min m' p.m.toNat = m' by omega] at h0
    refine holds_congr (fun j => j ≠ s.stop) (fun j hj => ?_) _ _ (fun i hi => ?_) h0
    · rw [hget, if_neg hj]; exact ⟨rfl, rfl, rfl⟩
    · rw [List.length_take, corrections_length] at hi
      simp only [pts, List.length_append, List.length_map, List.length_cons, List.length_nil] at hi
      rw [hmem.stop]
      exact mod_ne (by omega) (by omega)
  have hstop' : (s.stop + 1) % p.m.toNat = s.k % p.m.toNat := by
    rw [hmem.stop, Nat.mod_add_mod]
    congr 1
    omega
  have hscale : scaling s r = scale C := by
    rw [hC]
    show vecdot yv sv / vecdot yv yv = dot yv sv / dot yv yv
    rw [vecdot_eq, vecdot_eq]
  have hlt : (C.take p.m.toNat).length ≤ s.k := by rw [hClen]; split_ifs <;> omega
  have hlm : (C.take p.m.toNat).length ≤ p.m.toNat := by rw [hClen]; split_ifs <;> omega
  obtain ⟨_, h2, h3, _, h5⟩ := loops_eq (scale C) (C.take p.m.toNat) s.k
    (fun i => - effGrad p r.g pg i) (storeLm s r) hlm hlt hm0 hslen hholds
  unfold newDirection direction
  rw [← hClen, hstop', hscale]
  exact ⟨h5, h2, holds_congr (fun _ => True) (fun j _ => h3 j) _ _ (fun _ _ => trivial) hholds⟩

theorem mem_start (env : Env n σ K) (p : Par K) (x0 : Fin n → K) (cb : σ) :
    Mem env p x0 (start env p x0 cb) :=
  ⟨List.length_replicate, (Nat.zero_mod _).symm, by
    show Holds _ _ _ (([] : List ((Fin n → K) × (Fin n → K))).take _)
    rw [List.take_nil]; trivial, rfl⟩

theorem mem_next {env : Env n σ K} {p : Par K} (hm : 1 ≤ p.m) {x0 : Fin n → K} {s s' : St n σ K}
    (hl : s.k = s.reports.length + 1) (hmem : Mem env p x0 s) (h : iterate env p s = .inl s') :
    Mem env p x0 s' := by
  obtain ⟨_, _, _, pf, cb, rfl⟩ := iterate_inl h
  obtain ⟨_, h2, h3⟩ := newDirection_eq hm hl hmem (lineSearch env p s) (newPg p s (lineSearch env p s))
    (rep env p s (lineSearch env p s)) ⟨rfl, rfl⟩
  refine ⟨h2, ?_, h3, rfl⟩
  show (s.stop + 1) % _ = (s.k + 1 - 1) % _
  rw [hmem.stop, Nat.mod_add_mod]
  congr 1
  omega

/-- Everything known about the states at the head of the loop. -/
theorem reach_loop {env : Env n σ K} {p : Par K} {x0 : Fin n → K} {cb : σ} {s : St n σ K}
    (h : Reach env p x0 cb s) : check n p = none ∧ Loop env (fillEnd n p) x0 s ∧
      (1 ≤ p.m → Mem env (fillEnd n p) x0 s) := by
  induction h with
  | start hc _ => exact ⟨hc, loop_start _ _ _ _, fun _ => mem_start _ _ _ _⟩
  | next _ hi ih =>
    obtain ⟨hc, hl, hmem⟩ := ih
    exact ⟨hc, loop_next (ok_of_check hc) hl hi,
      fun hm => mem_next (by rw [fillEnd_eq]; exact hm) hl.k (hmem hm) hi⟩

theorem slope_of_loop {env : Env n σ K} {p : Par K} {x0 : Fin n → K} {s : St n σ K} (h : Loop env p x0 s) :
    effGrad p s.g s.pg = slope env p s.x := by
  unfold effGrad slope
  by_cases hc : p.c = 0
  · rw [if_pos (feq_iff.2 hc), if_pos hc, h.inv.g]
  · rw [if_neg (fun h => hc (feq_iff.1 h)), if_neg hc, h.inv.pg hc, h.inv.g]

theorem dot_comm (x y : Fin n → K) : dot x y = dot y x := sum_congr rfl fun i _ => mul_comm _ _

theorem dot_sub (x y z : Fin n → K) (a : K) : dot x (fun i => y i - a * z i) = dot x y - a * dot x z := by
  unfold dot
  rw [mul_sum, ← sum_sub_distrib]
  exact sum_congr rfl fun i _ => by ring

theorem dot_add (x y z : Fin n → K) (a : K) : dot x (fun i => y i + a * z i) = dot x y + a * dot x z := by
  unfold dot
  rw [mul_sum, ← sum_add_distrib]
  exact sum_congr rfl fun i _ => by ring

theorem outer_mulVec (u v w : Fin n → K) (i : Fin n) : (vecMulVec u v *ᵥ w) i = u i * dot v w := by
  unfold mulVec dotProduct dot
  rw [mul_sum]
  refine sum_congr rfl fun j _ => ?_
  show vecMulVec u v i j * w j = _
  rw [vecMulVec_apply]
  ring

theorem rank1_mulVec (a : K) (u v w : Fin n → K) :
    (1 - a • vecMulVec u v) *ᵥ w = fun i => w i - a * dot v w * u i := by
  funext i
  rw [sub_mulVec, one_mulVec, smul_mulVec]
  show w i - a * (vecMulVec u v *ᵥ w) i = _
  rw [outer_mulVec]
  ring

theorem twoLoop_zero (gamma : K) (i : Fin n) (l : List ((Fin n → K) × (Fin n → K)))
    (hl : ∀ pr ∈ l, pr.1 i = 0 ∧ pr.2 i = 0) (q : Fin n → K) (hq : q i = 0) : twoLoop gamma l q i = 0 := by
  induction l generalizing q with
  | nil => simp [twoLoop, hq]
  | cons pr l ih =>
    obtain ⟨s, y⟩ := pr
    obtain ⟨h1, h2⟩ := hl _ (List.mem_cons_self ..)
    simp only [twoLoop]
    rw [ih (fun pr h => hl pr (List.mem_cons_of_mem _ h)) _ (by simp only at h2; rw [hq, h2]; ring)]
    simp only at h1
    rw [h1]
    ring

theorem corrections_zero (i : Fin n) (v : K) : ∀ l : List ((Fin n → K) × (Fin n → K)),
    (∀ a ∈ l, a.1 i = v ∧ a.2 i = 0) → ∀ pr ∈ corrections l, pr.1 i = 0 ∧ pr.2 i = 0
  | [], _, pr, h => by cases h
  | [_], _, pr, h => by cases h
  | a :: b :: l, hl, pr, h => by
    rcases List.mem_cons.1 h with rfl | h
    · obtain ⟨h1, h2⟩ := hl a (by simp)
      obtain ⟨h3, h4⟩ := hl b (by simp)
      exact ⟨by simp only; rw [h1, h3, sub_self], by simp only; rw [h2, h4, sub_self]⟩
    · exact corrections_zero i v (b :: l) (fun c hc => hl c (List.mem_cons_of_mem _ hc)) pr h

theorem slope_zero {env : Env n σ K} {p : Par K} (ok : Ok n p) {i : Fin n} {x : Fin n → K}
    (hi : (env.eval x).2 i = 0) (hx : p.c = 0 ∨ ¬ Penalised p.start p.stop i ∨ x i = 0) :
    slope env p x i = 0 := by
  unfold slope
  split_ifs with hc
  · exact hi
  · unfold pseudoGradient
    by_cases hp : Penalised p.start p.stop i
    · rw [if_pos (show _ ∧ _ from hp)]
      have h0 : x i = 0 := by
        rcases hx with h | h | h
        · exact absurd h hc
        · exact absurd hp h
        · exact h
      rw [if_neg (by rw [h0]; exact lt_irrefl _), if_neg (by rw [h0]; exact lt_irrefl _), hi,
        if_neg (by have := ok.c; linarith), if_neg (by have := ok.c; linarith)]
    · rw [if_neg (show ¬ (_ ∧ _) from hp)]
      exact hi

/-- A coordinate that never moves. -/
structure Fixed (i : Fin n) (v : K) (s : St n σ K) : Prop where
  x : s.x i = v
  d : s.d i = 0
  reports : ∀ q ∈ s.reports, q.x i = v

theorem fixed_search {env : Env n σ K} {p : Par K} {i : Fin n} {v : K} {s : St n σ K} {r : LsOut n K}
    (hf : Fixed i v s) (hx : p.c = 0 ∨ ¬ Penalised p.start p.stop i ∨ v = 0) (hg : LsGood env p s r) :
    r.x i = v := by
  by_cases hc : p.c = 0
  · rw [(hg.plain hc).2.1 i, hf.d, hf.x, mul_zero, add_zero]
  · rw [(hg.owl hc).2.1]
    unfold project vecadd
    by_cases hp : Penalised p.start p.stop i
    · have h0 : v = 0 := by
        rcases hx with h | h | h
        · exact absurd h hc
        · exact absurd hp h
        · exact h
      rw [if_pos (show _ ∧ _ from hp), hf.d, hf.x, h0, mul_zero, add_zero, zero_mul, if_pos (le_refl _)]
    · rw [if_neg (show ¬ (_ ∧ _) from hp), hf.d, hf.x, mul_zero, add_zero]

theorem fixed_next {env : Env n σ K} {p : Par K} (ok : Ok n p) (hm : 1 ≤ p.m) {x0 : Fin n → K} {i : Fin n}
    (hi : ∀ x, (env.eval x).2 i = 0) (hx : p.c = 0 ∨ ¬ Penalised p.start p.stop i ∨ x0 i = 0)
    {s s' : St n σ K} (hl : Loop env p x0 s) (hmem : Mem env p x0 s) (hf : Fixed i (x0 i) s)
    (h : iterate env p s = .inl s') : Fixed i (x0 i) s' := by
  have hl' := loop_next ok hl h
  have heff := slope_of_loop hl'
  obtain ⟨h0, _, _, pf, cb, rfl⟩ := iterate_inl h
  have hg := lineSearch_good ok s h0
  have hxi := fixed_search hf hx hg
  have hrep : ∀ q ∈ rep env p s (lineSearch env p s) :: s.reports, q.x i = x0 i := by
    intro q hq
    rcases List.mem_cons.1 hq with rfl | hq
    · exact hxi
    · exact hf.reports q hq
  refine ⟨hxi, ?_, hrep⟩
  obtain ⟨h1, _, _⟩ := newDirection_eq hm hl.k hmem (lineSearch env p s) (newPg p s (lineSearch env p s))
    (rep env p s (lineSearch env p s)) ⟨rfl, rfl⟩
  have hd : (newDirection p s (lineSearch env p s) (newPg p s (lineSearch env p s))).1 i = 0 := by
    rw [h1]
    apply twoLoop_zero
    · intro pr hpr
      refine corrections_zero i (x0 i) _ ?_ pr (List.mem_of_mem_take hpr)
      intro a ha
      unfold pts at ha
      rcases List.mem_append.1 ha with ha | ha
      · obtain ⟨q, hq, rfl⟩ := List.mem_map.1 ha
        exact ⟨hrep q hq, by simp only; rw [(hl'.hist.good q hq).2.1]; exact hi _⟩
      · rw [List.mem_singleton.1 ha]
        exact ⟨rfl, hi _⟩
    · have : effGrad p (lineSearch env p s).g (newPg p s (lineSearch env p s)) i = 0 := by
        have := congrFun heff i
        refine this.trans (slope_zero ok (hi _) ?_)
        rcases hx with h | h | h
        · exact .inl h
        · exact .inr (.inl h)
        · exact .inr (.inr (hxi.trans h))
      rw [this, neg_zero]
  simp only [update]
  split_ifs
  · exact hd
  · unfold constrain
    rw [hd]
    split_ifs <;> rfl

/-- The line search enforces positive curvature, or the gradient is strictly monotone (always asked of
    penalised problems). -/
def Curved (env : Env n σ K) (p : Par K) : Prop :=
  (p.c = 0 ∧ (p.linesearch = 2 ∨ p.linesearch = 3 ∨ (p.linesearch = 0 ∧ p.gtol < 1))) ∨
    ((p.c ≠ 0 ∨ p.linesearch = 1) ∧
      ∀ x y, x ≠ y → 0 < dot (fun i => (env.eval x).2 i - (env.eval y).2 i) (fun i => x i - y i))

/-- A penalised coordinate moves unless its direction is zero. -/
theorem project_moves {x d pg a : K} (ha : 0 < a) (hd : d * pg < 0) :
    (if (x + a * d) * (if feq x 0 then -pg else x) ≤ 0 then 0 else x + a * d) ≠ x := by
  have hd0 : d ≠ 0 := by rintro rfl; simp at hd
  have had : a * d ≠ 0 := mul_ne_zero ha.ne' hd0
  rcases eq_or_ne x 0 with rfl | hx
  · rw [if_pos (feq_iff.2 rfl)]
    split_ifs with h
    · exfalso
      rw [zero_add] at h
      have : 0 < a * d * -pg := by nlinarith
      exact absurd h (not_le.2 this)
    · rw [zero_add]; exact had
  · rw [if_neg fun h => hx (feq_iff.1 h)]
    split_ifs with h
    · exact hx.symm
    · intro h1; exact had (by linarith)

theorem search_moves {env : Env n σ K} {p : Par K} {s : St n σ K} {r : LsOut n K} (inv : Inv env p s)
    (hls : p.c = 0 → 0 < r.step) (hd : dot (effGrad p s.g s.pg) s.d < 0) (h : LsGood env p s r) :
    r.x ≠ s.x := by
  intro he
  by_cases hc : p.c = 0
  · obtain ⟨_, hx, _⟩ := h.plain hc
    have h0 : ∀ i, s.d i = 0 := fun i => by
      have := hx i
      rw [he] at this
      have h1 : r.step * s.d i = 0 := by linarith
      exact (mul_eq_zero.1 h1).resolve_left (hls hc).ne'
    have : dot (effGrad p s.g s.pg) s.d = 0 := sum_eq_zero fun i _ => by rw [h0 i, mul_zero]
    exact hd.ne this
  · obtain ⟨hst, hx, _⟩ := h.owl hc
    have h0 : ∀ i, s.d i = 0 := fun i => by
      have hxi := congrFun hx i
      rw [he] at hxi
      unfold project vecadd at hxi
      by_cases hp : Penalised p.start p.stop i
      · rw [if_pos (show _ ∧ _ from hp)] at hxi
        rcases inv.d hc i hp with h1 | h1
        · exact h1
        · exfalso
          have := project_moves (x := s.x i) hst h1
          apply this
          rw [mul_comm r.step] at hxi ⊢
          exact hxi.symm
      · rw [if_neg (show ¬ (_ ∧ _) from hp)] at hxi
        have h1 : r.step * s.d i = 0 := by linarith
        exact (mul_eq_zero.1 h1).resolve_left hst.ne'
    have : dot (effGrad p s.g s.pg) s.d = 0 := sum_eq_zero fun i _ => by rw [h0 i, mul_zero]
    exact hd.ne this

theorem curvature_pos {env : Env n σ K} {p : Par K} (ok : Ok n p) (hw : Curved env p)
    {s : St n σ K} {r : LsOut n K} (hls : p.c = 0 → p.linesearch = LS_ARMIJO → 0 < r.step)
    (inv : Inv env p s) (hd : dot (effGrad p s.g s.pg) s.d < 0) (h : LsGood env p s r) :
    0 < dot (fun i => r.g i - s.g i) (fun i => r.x i - s.x i) := by
  have hg := inv.g
  rcases hw with ⟨hc, hw⟩ | ⟨hs, hmon⟩
  · have hd' : dot s.g s.d < 0 := by
      unfold effGrad at hd
      rwa [if_pos (feq_iff.2 hc)] at hd
    obtain ⟨_, hx, _⟩ := h.plain hc
    have hdot : dot (fun i => r.g i - s.g i) (fun i => r.x i - s.x i) =
        r.step * (dot r.g s.d - dot s.g s.d) := by
      unfold dot
      rw [← sum_sub_distrib, mul_sum]
      exact sum_congr rfl fun i _ => by simp only; rw [hx i]; ring
    have hwolfe : p.linesearch = LS_WOLFE ∨ p.linesearch = LS_STRONG →
        0 < dot (fun i => r.g i - s.g i) (fun i => r.x i - s.x i) := by
      intro hl
      obtain ⟨h1, h2⟩ := h.wolfe hc hl
      have := (ok.wolfe hl).2
      rw [hdot]
      exact mul_pos h1 (by nlinarith)
    rcases hw with hw | hw | ⟨hw, hgt⟩
    · exact hwolfe (.inl hw)
    · exact hwolfe (.inr hw)
    · have h1 := abs_le.1 (h.mt hc hw)
      have h2 : dot s.g s.d < dot r.g s.d := by nlinarith [h1.1]
      rw [hdot]
      refine mul_pos (lt_of_le_of_ne h.step (Ne.symm fun h0 => ?_)) (by linarith)
      have hxx : r.x = s.x := by
        funext i; rw [hx i, h0, zero_mul, add_zero]
      rw [h.g, hxx, ← hg] at h2
      exact lt_irrefl _ h2
  · rw [h.g, hg]
    exact hmon r.x s.x (search_moves inv (fun hc => hls hc (hs.resolve_left fun h => h hc)) hd h)

theorem not_converged_ne {sqrt : K → K} (h0 : sqrt 0 = 0) {p : Par K} (he : 0 ≤ p.epsilon) {x g : Fin n → K}
    (h : ¬ converged p (vec2norm sqrt x) (vec2norm sqrt g)) : g ≠ 0 := by
  rintro rfl
  apply h
  unfold converged
  have : vec2norm sqrt (0 : Fin n → K) = 0 := by
    unfold vec2norm
    rw [vecdot_eq, show dot (0 : Fin n → K) 0 = 0 by simp [dot], h0]
  rw [this, zero_div]
  exact he

theorem armijo_step {env : Env n σ K} {p : Par K} (ok : Ok n p) (hc : p.c = 0) (hl : p.linesearch = LS_ARMIJO)
    (s : St n σ K) (h : 0 ≤ (lineSearch env p s).ret) : 0 < (lineSearch env p s).step := by
  have hm : 0 < p.maxLinesearch.toNat := by have := ok.maxLs; omega
  have hm' : p.maxLinesearch = ((0 + p.maxLinesearch.toNat : Nat) : Int) := by have := ok.maxLs; omega
  unfold lineSearch at h ⊢
  rw [if_pos (feq_iff.2 hc), if_neg (by rw [hl]; decide)] at h ⊢
  simp only [backtracking, vecdot_eq] at h ⊢
  by_cases h0 : s.step ≤ 0
  · rw [if_pos h0] at h; exact absurd h (by show ¬ (0:Int) ≤ ERR_INVALIDPARAMETERS; decide)
  rw [if_neg h0] at h ⊢
  by_cases h1 : 0 < dot s.g s.d
  · rw [if_pos h1] at h; exact absurd h (by show ¬ (0:Int) ≤ ERR_INCREASEGRADIENT; decide)
  rw [if_neg h1] at h ⊢
  obtain ⟨_, _, _, hok, _⟩ := btLoop_spec env p s.x s.d s.fx (dot s.g s.d)
    p.maxLinesearch.toNat 0 s.step [] (not_le.1 h0) hm hm'
  exact (hok h).2.pos

theorem dot_self_pos {g : Fin n → K} (h : g ≠ 0) : 0 < dot g g := by
  obtain ⟨i, hi⟩ := Function.ne_iff.1 h
  exact sum_pos' (fun i _ => mul_self_nonneg _) ⟨i, mem_univ _, mul_self_pos.2 hi⟩

theorem reach_step {env : Env n σ K} (h0 : env.sqrt 0 = 0) (hpos : ∀ v, 0 < v → 0 < env.sqrt v) {p : Par K}
    {x0 : Fin n → K} {cb : σ} {s : St n σ K} (h : Reach env p x0 cb s) : 0 < s.step := by
  cases h with
  | start hck ha =>
    have hg := not_converged_ne h0 (ok_of_check hck).eps ha
    show 0 < 1 / vec2norm env.sqrt (start env (fillEnd n p) x0 cb).d
    unfold vec2norm
    rw [vecdot_eq]
    refine one_div_pos.2 (hpos _ (dot_self_pos fun hd => hg ?_))
    funext i
    have := congrFun hd i
    exact neg_eq_zero.1 this
  | next hr hi =>
    obtain ⟨_, _, _, pf, cb', rfl⟩ := iterate_inl hi
    exact one_pos

end Verif.Lbfgs
