import Verif.Lemmas.Thresholds
/-!
C01, C02: conversion of `stability_selection` into thresholds.
-/
namespace Verif.Thresholds
open Spec

/-- **C01** (acceptance).  The conversion succeeds with thresholds `ts` exactly when the
    argument is a supported value whose entries are, one by one and in order, turned into the
    thresholds `ts` as specified (each within `1..n_boots`). -/
theorem C01_thresholds_exact {S : FloatSem} {n : Nat} (hS : Sane S n) (a : Arg)
    (ts : List Int) :
    stabilityToThreshold S a n = .ok ts ↔
      ∃ es, Asks a es ∧ List.Forall₂ (Is S n) es ts := by
  rw [stab_ok_iff]
  constructor
  · rintro ⟨hc, hb⟩
    cases a with
    | float f =>
      refine ⟨_, Asks.float f, ?_⟩
      simp only [convert, bind, Except.bind] at hc
      cases hp : pyInt (mulN S f n) with
      | error e => rw [hp] at hc; cases hc
      | ok t =>
        rw [hp] at hc
        injection hc with hc; subst hc
        exact List.Forall₂.cons ((pyInt_iff f t).1 ⟨hp, hb t (List.mem_singleton.2 rfl)⟩) List.Forall₂.nil
    | int z =>
      refine ⟨_, Asks.int z, ?_⟩
      injection hc with hc
      exact (forall₂_count [z] ts).1 ⟨hc, hb⟩
    | list xs =>
      simp only [convert] at hc
      cases hf : xs.mapM isFloat with
      | some fs =>
        rw [hf] at hc
        injection hc with hc
        rw [mapM_isFloat hf]
        exact ⟨_, Asks.listFloat fs, (forall₂_map_cast hS fs ts).1 ⟨hc, hb⟩⟩
      | none =>
        rw [hf] at hc
        cases hz : xs.mapM isInt with
        | some zs =>
          rw [hz] at hc
          injection hc with hc
          rw [mapM_isInt hz]
          exact ⟨_, Asks.listInt zs, (forall₂_count zs ts).1 ⟨hc, hb⟩⟩
        | none => rw [hz] at hc; cases hc
    | arrFloat fs =>
      injection hc with hc
      exact ⟨_, Asks.arrFloat fs, (forall₂_map_cast hS fs ts).1 ⟨hc, hb⟩⟩
    | arrInt zs =>
      injection hc with hc
      exact ⟨_, Asks.arrInt zs, (forall₂_count zs ts).1 ⟨hc, hb⟩⟩
    | arrOther => cases hc
    | other => cases hc
  · rintro ⟨es, ha, h2⟩
    cases ha with
    | float f =>
      obtain ⟨t, u, ht, hu, rfl⟩ := List.forall₂_cons_left_iff.1 h2
      cases hu
      have := (pyInt_iff f t).2 ht
      refine ⟨by simp [convert, bind, Except.bind, this.1, pure, Except.pure], ?_⟩
      intro t' ht'; rw [List.mem_singleton.1 ht']; exact this.2
    | int z =>
      have := (forall₂_count [z] ts).2 h2
      exact ⟨by simp [convert, this.1], this.2⟩
    | listFloat fs =>
      have := (forall₂_map_cast hS fs ts).2 h2
      exact ⟨by simp only [convert, mapM_isFloat_map]; rw [this.1], this.2⟩
    | listInt zs =>
      have := (forall₂_count zs ts).2 h2
      refine ⟨?_, this.2⟩
      cases zs with
      | nil => simp [convert, ← this.1]
      | cons z zs =>
        have hf : ((z :: zs).map PyItem.int).mapM isFloat = none := by simp [isFloat]
        simp only [convert, hf, mapM_isInt_map]
        rw [this.1]
    | arrFloat fs =>
      have := (forall₂_map_cast hS fs ts).2 h2
      exact ⟨by simp only [convert]; rw [this.1], this.2⟩
    | arrInt zs =>
      have := (forall₂_count zs ts).2 h2
      exact ⟨by simp only [convert]; rw [this.1], this.2⟩

/-- **C01** (error kind).  Every rejected argument raises `ValueError`, except a scalar whose
    product with `n_boots` is infinite, which raises `OverflowError`. -/
theorem C01_error_kind (S : FloatSem) (a : Arg) (n : Nat) (e : PyErr)
    (h : stabilityToThreshold S a n = .error e) :
    e = .valueError ∨
      (e = .overflowError ∧ ∃ f, a = .float f ∧ (mulN S f n = .posInf ∨ mulN S f n = .negInf)) := by
  unfold stabilityToThreshold at h
  cases hc : convert S a n with
  | ok us =>
    rw [hc] at h
    simp only [bind, Except.bind] at h
    split at h <;> cases h
    exact Or.inl rfl
  | error e' =>
    rw [hc] at h
    simp only [bind, Except.bind] at h
    injection h with h; subst h
    cases a with
    | float f =>
      cases hx : mulN S f n with
      | fin q => simp [convert, bind, Except.bind, hx, pyInt, pure, Except.pure] at hc
      | nan =>
        simp [convert, bind, Except.bind, hx, pyInt] at hc; exact Or.inl hc.symm
      | posInf =>
        simp [convert, bind, Except.bind, hx, pyInt] at hc
        exact Or.inr ⟨hc.symm, f, rfl, Or.inl hx⟩
      | negInf =>
        simp [convert, bind, Except.bind, hx, pyInt] at hc
        exact Or.inr ⟨hc.symm, f, rfl, Or.inr hx⟩
    | int z => cases hc
    | list xs =>
      simp only [convert] at hc
      cases hf : xs.mapM isFloat with
      | some fs => rw [hf] at hc; cases hc
      | none =>
        rw [hf] at hc
        cases hz : xs.mapM isInt with
        | some zs => rw [hz] at hc; cases hc
        | none => rw [hz] at hc; injection hc with hc; exact Or.inl hc.symm
    | arrFloat fs => cases hc
    | arrInt zs => cases hc
    | arrOther => injection hc with hc; exact Or.inl hc.symm
    | other => injection hc with hc; exact Or.inl hc.symm

/-- **C01** (the proportion 1.0).  `stability_selection=1.0`, the default, always asks for all
    bootstraps. -/
theorem C01_one_is_all {S : FloatSem} {n : Nat} (hS : Sane S n) (hn : 1 ≤ n) :
    stabilityToThreshold S (.float (.fin 1)) n = .ok [(n : Int)] := by
  rw [C01_thresholds_exact hS]
  refine ⟨_, Asks.float _, List.Forall₂.cons ?_ List.Forall₂.nil⟩
  refine ⟨by exact_mod_cast hn, le_refl _, 1, n, rfl, ?_, ?_, ?_⟩
  · have := hS.exact n (le_refl _); simpa using this
  · simp
  · simp

/-- A concrete float semantics satisfying `Sane`: exact products, cast of special values to 0. -/
def exactSem : FloatSem where
  fl := .fin
  cast := fun x => match x with
    | .fin q => trunc q
    | _ => 0

theorem exactSem_sane (n : Nat) : Sane exactSem n where
  exact := fun _ _ => rfl
  cast_fin := fun _ => rfl
  cast_special := fun x hx => by
    cases x with
    | fin q => exact absurd rfl (hx q)
    | nan => left; decide
    | posInf => left; decide
    | negInf => left; decide

-- C01, concrete cases
example : stabilityToThreshold exactSem (.list [.float (.fin (1/2)), .float (.fin (29/100))]) 24
    = .ok [12, 6] := by
  rw [C01_thresholds_exact (exactSem_sane 24)]
  refine ⟨_, Asks.listFloat [.fin (1/2), .fin (29/100)], ?_⟩
  refine .cons ?_ (.cons ?_ .nil)
  · exact ⟨by norm_num, by norm_num, 1/2, 12, rfl, by simp [exactSem]; norm_num, by norm_num,
      by norm_num⟩
  · exact ⟨by norm_num, by norm_num, 29/100, 174/25, rfl, by simp [exactSem]; norm_num,
      by norm_num, by norm_num⟩
example : stabilityToThreshold exactSem (.float .posInf) 24 = .error .overflowError := rfl
example : stabilityToThreshold exactSem (.float (.fin 1)) 24 = .ok [24] :=
  C01_one_is_all (exactSem_sane 24) (by decide)

/-- **C01** (infinite proportions): an infinite `stability_selection` raises `OverflowError`, and
    `ValueError` only if there are no bootstraps. -/
theorem C01_infinite (S : FloatSem) (f : PyFloat) (hf : f = .posInf ∨ f = .negInf) (n : Nat) :
    (n ≠ 0 → stabilityToThreshold S (.float f) n = .error .overflowError) ∧
    (n = 0 → stabilityToThreshold S (.float f) n = .error .valueError) := by
  rcases hf with rfl | rfl <;> constructor <;> intro h <;>
    simp [stabilityToThreshold, convert, mulN, h, pyInt, bind, Except.bind]

example (S : FloatSem) : stabilityToThreshold S (.float .negInf) 24 = .error .overflowError :=
  (C01_infinite S _ (.inr rfl) 24).1 (by decide)

/-- **C02** is false: an empty list is accepted and provides no threshold at all. -/
theorem C02_negation (S : FloatSem) (n : Nat) :
    ∃ a, stabilityToThreshold S a n = .ok [] := ⟨.list [], rfl⟩

/-- **C02** (partial).  Every accepted argument other than an empty list or array provides at
    least one threshold.  Missing: the empty list/array, for which the claim is false
    (`C02_negation`). -/
theorem C02_nonempty_partial (S : FloatSem) (a : Arg) (n : Nat) (ts : List Int)
    (h : stabilityToThreshold S a n = .ok ts)
    (ha : a ≠ .list [] ∧ a ≠ .arrFloat [] ∧ a ≠ .arrInt []) : ts ≠ [] := by
  rw [stab_ok_iff] at h
  obtain ⟨hc, _⟩ := h
  rintro rfl
  cases a with
  | float f =>
    simp only [convert, bind, Except.bind] at hc
    split at hc <;> simp [pure, Except.pure] at hc
  | int z => simp [convert] at hc
  | list xs =>
    simp only [convert] at hc
    cases hf : xs.mapM isFloat with
    | some fs =>
      rw [hf] at hc
      have := mapM_isFloat hf
      cases fs with
      | nil => exact ha.1 (by simp [this])
      | cons => simp at hc
    | none =>
      rw [hf] at hc
      cases hz : xs.mapM isInt with
      | some zs =>
        rw [hz] at hc
        have := mapM_isInt hz
        cases zs with
        | nil => exact ha.1 (by simp [this])
        | cons => simp at hc
      | none => rw [hz] at hc; cases hc
  | arrFloat fs =>
    cases fs with
    | nil => exact ha.2.1 rfl
    | cons => simp [convert] at hc
  | arrInt zs =>
    cases zs with
    | nil => exact ha.2.2 rfl
    | cons => simp [convert] at hc
  | arrOther => cases hc
  | other => cases hc

example : stabilityToThreshold exactSem (.list [.int 3]) 5 = .ok [3] := rfl

end Verif.Thresholds
