import Mathlib.Tactic.Linarith
import Mathlib.Tactic.NormNum
import Verif.Spec.Thresholds
/-!
Helper lemmas for C01, C02: conversion of `stability_selection` into thresholds.
-/
namespace Verif.Thresholds
open Spec

theorem mapM_isFloat {xs : List PyItem} {fs} (h : xs.mapM isFloat = some fs) :
    xs = fs.map .float := by
  induction xs generalizing fs with
  | nil => simp at h; subst h; rfl
  | cons x xs ih =>
    cases hm : xs.mapM isFloat with
    | none => cases x <;> simp [isFloat, hm] at h
    | some gs =>
      cases x <;> simp [isFloat, hm] at h
      simp [← h, ih hm]

theorem mapM_isFloat_map (fs : List PyFloat) :
    (fs.map PyItem.float).mapM isFloat = some fs := by
  induction fs with
  | nil => rfl
  | cons f fs ih => simp [isFloat, ih]

theorem mapM_isInt {xs : List PyItem} {zs} (h : xs.mapM isInt = some zs) :
    xs = zs.map .int := by
  induction xs generalizing zs with
  | nil => simp at h; subst h; rfl
  | cons x xs ih =>
    cases hm : xs.mapM isInt with
    | none => cases x <;> simp [isInt, hm] at h
    | some gs =>
      cases x <;> simp [isInt, hm] at h
      simp [← h, ih hm]

theorem mapM_isInt_map (zs : List Int) :
    (zs.map PyItem.int).mapM isInt = some zs := by
  induction zs with
  | nil => rfl
  | cons f fs ih => simp [isInt, ih]

theorem all_bounds_iff (ts : List Int) (n : Nat) :
    (ts.all (fun t => decide (t ≤ (n : Int))) && ts.all (fun t => decide (1 ≤ t))) = true ↔
      ∀ t ∈ ts, 1 ≤ t ∧ t ≤ n := by
  simp only [Bool.and_eq_true, List.all_eq_true, decide_eq_true_eq]
  constructor
  · rintro ⟨h1, h2⟩ t ht; exact ⟨h2 t ht, h1 t ht⟩
  · intro h; exact ⟨fun t ht => (h t ht).2, fun t ht => (h t ht).1⟩

theorem stab_ok_iff (S : FloatSem) (a : Arg) (n : Nat) (ts : List Int) :
    stabilityToThreshold S a n = .ok ts ↔
      convert S a n = .ok ts ∧ ∀ t ∈ ts, 1 ≤ t ∧ t ≤ n := by
  unfold stabilityToThreshold
  cases hc : convert S a n with
  | error e => simp [bind, Except.bind]
  | ok us =>
    simp only [bind, Except.bind]
    by_cases hb : ∀ t ∈ us, 1 ≤ t ∧ t ≤ (n : Int)
    · rw [if_pos ((all_bounds_iff us n).2 hb)]
      constructor
      · intro h; cases h; exact ⟨rfl, hb⟩
      · rintro ⟨h, _⟩; cases h; rfl
    · rw [if_neg (fun h => hb ((all_bounds_iff us n).1 h))]
      constructor
      · intro h; cases h
      · rintro ⟨h, h2⟩; cases h; exact absurd h2 hb

/-- A truncation inside `1..n` is the integer part. -/
theorem trunc_iff {q : ℚ} {t : Int} (ht : 1 ≤ t) :
    trunc q = t ↔ (t : ℚ) ≤ q ∧ q < t + 1 := by
  have ht' : (1 : ℚ) ≤ t := by exact_mod_cast ht
  unfold trunc
  by_cases hq : 0 ≤ q
  · rw [if_pos hq, Int.floor_eq_iff]
  · rw [if_neg hq]
    constructor
    · intro h
      have : (⌈q⌉ : Int) ≤ 0 := Int.ceil_le.2 (by push_cast; linarith)
      omega
    · rintro ⟨h1, _⟩; exfalso; linarith

/-- The element obtained from a proportion through `.astype('int')` is admissible exactly when
    it is the specified threshold. -/
theorem cast_iff {S : FloatSem} {n : Nat} (hS : Sane S n) (f : PyFloat) (t : Int) :
    (S.cast (mulN S f n) = t ∧ 1 ≤ t ∧ t ≤ n) ↔ Is S n (.proportion f) t := by
  constructor
  · rintro ⟨h, h1, h2⟩
    refine ⟨h1, h2, ?_⟩
    have key : ∀ x, S.cast x = t → ∃ q, x = .fin q ∧ (t : ℚ) ≤ q ∧ q < t + 1 := by
      intro x hx
      by_cases hfin : ∃ q, x = .fin q
      · obtain ⟨q, rfl⟩ := hfin
        refine ⟨q, rfl, ?_⟩
        rw [hS.cast_fin] at hx
        exact (trunc_iff h1).1 hx
      · have := hS.cast_special x (fun q hq => hfin ⟨q, hq⟩)
        omega
    obtain ⟨q, hq, hb⟩ := key _ h
    cases f with
    | fin p => exact ⟨p, q, rfl, hq, hb⟩
    | nan => simp [mulN] at hq
    | posInf => by_cases h0 : n = 0 <;> simp [mulN, h0] at hq
    | negInf => by_cases h0 : n = 0 <;> simp [mulN, h0] at hq
  · rintro ⟨h1, h2, p, q, rfl, hq, hb⟩
    refine ⟨?_, h1, h2⟩
    simp only [mulN, hq, hS.cast_fin]
    exact (trunc_iff h1).2 hb

theorem pyInt_iff {S : FloatSem} {n : Nat} (f : PyFloat) (t : Int) :
    (pyInt (mulN S f n) = .ok t ∧ 1 ≤ t ∧ t ≤ n) ↔ Is S n (.proportion f) t := by
  constructor
  · rintro ⟨h, h1, h2⟩
    refine ⟨h1, h2, ?_⟩
    cases f with
    | fin p =>
      cases hx : mulN S (.fin p) n with
      | fin q =>
        rw [hx] at h
        simp only [pyInt, Except.ok.injEq] at h
        exact ⟨p, q, rfl, hx, (trunc_iff h1).1 h⟩
      | nan => rw [hx] at h; simp [pyInt] at h
      | posInf => rw [hx] at h; simp [pyInt] at h
      | negInf => rw [hx] at h; simp [pyInt] at h
    | nan => simp [mulN, pyInt] at h
    | posInf => by_cases h0 : n = 0 <;> simp [mulN, h0, pyInt] at h
    | negInf => by_cases h0 : n = 0 <;> simp [mulN, h0, pyInt] at h
  · rintro ⟨h1, h2, p, q, rfl, hq, hb⟩
    refine ⟨?_, h1, h2⟩
    simp only [mulN, hq, pyInt, (trunc_iff h1).2 hb]

theorem forall₂_map_cast {S : FloatSem} {n : Nat} (hS : Sane S n) (fs : List PyFloat)
    (ts : List Int) :
    (fs.map (fun f => S.cast (mulN S f n)) = ts ∧ ∀ t ∈ ts, 1 ≤ t ∧ t ≤ (n : Int)) ↔
      List.Forall₂ (Is S n) (fs.map .proportion) ts := by
  induction fs generalizing ts with
  | nil =>
    cases ts with
    | nil => simp
    | cons t ts => simp
  | cons f fs ih =>
    cases ts with
    | nil => simp
    | cons t ts =>
      simp only [List.map_cons, List.cons.injEq, List.forall₂_cons, List.mem_cons,
        forall_eq_or_imp]
      rw [← ih ts, ← cast_iff hS f t]
      tauto

theorem forall₂_count {S : FloatSem} {n : Nat} (zs ts : List Int) :
    (zs = ts ∧ ∀ t ∈ ts, 1 ≤ t ∧ t ≤ (n : Int)) ↔
      List.Forall₂ (Is S n) (zs.map .count) ts := by
  induction zs generalizing ts with
  | nil =>
    cases ts with
    | nil => simp
    | cons t ts => simp
  | cons z zs ih =>
    cases ts with
    | nil => simp
    | cons t ts =>
      simp only [List.map_cons, List.cons.injEq, List.forall₂_cons, List.mem_cons,
        forall_eq_or_imp]
      rw [← ih ts]
      simp only [Is]
      constructor
      · rintro ⟨⟨rfl, rfl⟩, ⟨h1, h2⟩, h3⟩; exact ⟨⟨h1, h2, rfl⟩, rfl, h3⟩
      · rintro ⟨⟨h1, h2, rfl⟩, rfl, h3⟩; exact ⟨⟨rfl, rfl⟩, ⟨h1, h2⟩, h3⟩

end Verif.Thresholds
