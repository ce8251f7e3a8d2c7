import Verif.Spec.LbfgsObj
import Verif.Lemmas.LbfgsPy
/-!
Lemmas about `LBFGS` objects (C126).
-/
namespace Verif.Lbfgs
open Spec

theorem fits_iff (z : Int) : Fits z ↔ -2147483648 ≤ z ∧ z ≤ 2147483647 := by
  unfold Fits; constructor <;> intro h <;> constructor <;> omega

variable {F : Type}

theorem cInt_ok {cv : Conv F} {v : PyVal F} {z : Int} (h : cInt cv v = .ok z) {a : Attr}
    (ha : a ∈ intAttrs) : Reads cv a v (.int z) := by
  cases v with
  | int y =>
    simp only [cInt] at h
    split at h
    · rename_i hr; cases h; exact .int ha ((fits_iff _).2 hr)
    · cases h
  | flt x =>
    simp only [cInt] at h
    split at h
    · rename_i hx
      split at h
      · rename_i hr; cases h; exact .rounded ha hx ((fits_iff _).2 hr)
      · cases h
    · cases h
  | str s => cases h

theorem cInt_error {cv : Conv F} {v : PyVal F} {e : PyErr} (h : cInt cv v = .error e) {a : Attr}
    (ha : a ∈ intAttrs) (w : PyVal F) : ¬ Reads cv a v w := by
  intro hw
  cases hw with
  | int _ hf =>
    simp only [cInt] at h
    rw [if_pos ((fits_iff _).1 hf)] at h; cases h
  | rounded _ hx hf =>
    simp only [cInt] at h
    rw [hx] at h
    simp only [if_pos ((fits_iff _).1 hf)] at h; cases h
  | float hn _ => exact hn ha
  | widened hn _ _ => exact hn ha
  | search _ => revert ha; decide

theorem cDouble_ok {cv : Conv F} {v : PyVal F} {x : F} (h : cDouble cv v = .ok x) {a : Attr}
    (ha : a ∉ intAttrs) (hl : a ≠ .linesearch) : Reads cv a v (.flt x) := by
  cases v with
  | int y => exact .widened ha hl h
  | flt x => cases h; exact .float ha hl
  | str s => cases h

theorem cDouble_error {cv : Conv F} {v : PyVal F} {e : PyErr} (h : cDouble cv v = .error e) {a : Attr}
    (ha : a ∉ intAttrs) (hl : a ≠ .linesearch) (w : PyVal F) : ¬ Reads cv a v w := by
  intro hw
  cases hw with
  | int hi _ => exact ha hi
  | rounded hi _ _ => exact ha hi
  | float _ _ => cases h
  | widened _ _ hx => simp only [cDouble] at h; rw [hx] at h; cases h
  | search _ => exact hl rfl

theorem searchCode_str (s : String) : searchCode (F := F) (.str s) =
    if s = "default" then .ok 0 else if s = "morethuente" then .ok 0 else if s = "armijo" then .ok 1
    else if s = "wolfe" then .ok 2 else if s = "strongwolfe" then .ok 3 else .error .keyError := by
  simp only [searchCode, lineSearchAlgo]
  by_cases h1 : s = "default"
  · subst h1; rfl
  by_cases h2 : s = "morethuente"
  · subst h2; rfl
  by_cases h3 : s = "armijo"
  · subst h3; rfl
  by_cases h4 : s = "wolfe"
  · subst h4; rfl
  by_cases h5 : s = "strongwolfe"
  · subst h5; rfl
  have hl : List.lookup s [("default", "LBFGS_LINESEARCH_DEFAULT"),
      ("morethuente", "LBFGS_LINESEARCH_MORETHUENTE"), ("armijo", "LBFGS_LINESEARCH_BACKTRACKING_ARMIJO"),
      ("wolfe", "LBFGS_LINESEARCH_BACKTRACKING_WOLFE"),
      ("strongwolfe", "LBFGS_LINESEARCH_BACKTRACKING_STRONG_WOLFE")] = none := by
    simp [List.lookup, beq_eq_false_iff_ne.2 h1, beq_eq_false_iff_ne.2 h2, beq_eq_false_iff_ne.2 h3,
      beq_eq_false_iff_ne.2 h4, beq_eq_false_iff_ne.2 h5]
  rw [hl]
  simp [h1, h2, h3, h4, h5]

theorem searchCode_ok {cv : Conv F} {v : PyVal F} {z : Int} (h : searchCode v = .ok z) :
    Reads cv .linesearch v (.int z) := by
  cases v with
  | int y => cases h
  | flt x => cases h
  | str s =>
    rw [searchCode_str] at h
    refine .search ?_
    split_ifs at h with h1 h2 h3 h4 h5 <;> cases h <;> subst_vars <;> decide

theorem searchCode_error {cv : Conv F} {v : PyVal F} {e : PyErr} (h : searchCode v = .error e)
    (w : PyVal F) : ¬ Reads cv .linesearch v w := by
  intro hw
  cases hw with
  | int hi _ => revert hi; decide
  | rounded hi _ _ => revert hi; decide
  | float _ hl => exact hl rfl
  | widened _ hl _ => exact hl rfl
  | search hs =>
    simp only [List.mem_cons, Prod.mk.injEq, List.not_mem_nil, or_false] at hs
    rcases hs with ⟨rfl, rfl⟩ | ⟨rfl, rfl⟩ | ⟨rfl, rfl⟩ | ⟨rfl, rfl⟩ | ⟨rfl, rfl⟩ <;> cases h

/-- What one assignment does. -/
theorem setAttr_spec (cv : Conv F) (p : Par F) (a : Attr) (v : PyVal F) :
    ((setAttr cv p a v).1 = .ok () ∧ Reads cv a v (getAttr (setAttr cv p a v).2 a) ∧
      ∀ b, b ≠ a → getAttr (setAttr cv p a v).2 b = getAttr p b) ∨
    ((∃ e, (setAttr cv p a v).1 = .error e) ∧ (setAttr cv p a v).2 = p ∧ ∀ w, ¬ Reads cv a v w) := by
  cases a
  case linesearch =>
    unfold setAttr store
    cases h : searchCode v with
    | ok z =>
      refine .inl ⟨rfl, searchCode_ok h, fun b hb => ?_⟩
      cases b <;> first | rfl | exact absurd rfl hb
    | error e => exact .inr ⟨⟨e, rfl⟩, rfl, searchCode_error h⟩
  all_goals
    unfold setAttr store
    first
    | (cases h : cInt cv v with
      | ok z =>
        refine .inl ⟨rfl, cInt_ok h (by decide), fun b hb => ?_⟩
        cases b <;> first | rfl | exact absurd rfl hb
      | error e => exact .inr ⟨⟨e, rfl⟩, rfl, cInt_error h (by decide)⟩)
    | (cases h : cDouble cv v with
      | ok z =>
        refine .inl ⟨rfl, cDouble_ok h (by decide) (by decide), fun b hb => ?_⟩
        cases b <;> first | rfl | exact absurd rfl hb
      | error e => exact .inr ⟨⟨e, rfl⟩, rfl, cDouble_error h (by decide) (by decide)⟩)

/-- An accepted assignment can be read in only one way. -/
theorem reads_unique {cv : Conv F} {a : Attr} {v w w' : PyVal F} (h : Reads cv a v w)
    (h' : Reads cv a v w') : w = w' := by
  cases h with
  | int hi _ =>
    cases h' with
    | int => rfl
    | widened hn _ _ => exact absurd hi hn
  | rounded hi hx _ =>
    cases h' with
    | rounded _ hx' _ => rw [hx] at hx'; cases hx'; rfl
    | float hn _ => exact absurd hi hn
  | float hn _ =>
    cases h' with
    | rounded hi _ _ => exact absurd hi hn
    | float => rfl
  | widened hn _ hx =>
    cases h' with
    | int hi _ => exact absurd hi hn
    | widened _ _ hx' => rw [hx] at hx'; cases hx'; rfl
  | search hs =>
    cases h' with
    | search hs' =>
      simp only [List.mem_cons, Prod.mk.injEq, List.not_mem_nil, or_false] at hs hs'
      rcases hs with ⟨rfl, rfl⟩ | ⟨rfl, rfl⟩ | ⟨rfl, rfl⟩ | ⟨rfl, rfl⟩ | ⟨rfl, rfl⟩ <;>
        simp at hs' <;> subst hs' <;> rfl

/-- One more assignment at the beginning. -/
theorem lastAccepted_cons {cv : Conv F} {p : Par F} {b : Attr} {v : PyVal F}
    {l : List (Attr × PyVal F)} {a : Attr} {w : PyVal F}
    (h : LastAccepted cv (getAttr (setAttr cv p b v).2) l a w) :
    LastAccepted cv (getAttr p) ((b, v) :: l) a w := by
  rcases h with ⟨before, v', after, rfl, hr, hn⟩ | ⟨hn, rfl⟩
  · exact .inl ⟨(b, v) :: before, v', after, rfl, hr, hn⟩
  · rcases setAttr_spec cv p b v with ⟨_, hr, hk⟩ | ⟨_, hk, hr⟩
    · by_cases hb : a = b
      · subst hb; exact .inl ⟨[], v, l, rfl, hr, hn⟩
      · refine .inr ⟨fun v' hv w' => ?_, hk a hb⟩
        rcases List.mem_cons.1 hv with h | h
        · cases h; exact absurd rfl hb
        · exact hn v' h w'
    · refine .inr ⟨fun v' hv w' => ?_, by rw [hk]⟩
      rcases List.mem_cons.1 hv with h | h
      · cases h; exact hr w'
      · exact hn v' h w'

theorem lowBits_iff (n : Nat) : lowBits n = n ↔ n < 2 ^ 31 := by
  unfold lowBits; constructor <;> intro h <;> omega

section
variable {σ : Type} [Zero F] [One F] [Add F] [Sub F] [Mul F] [Div F] [Neg F] [NatCast F]
  [LT F] [LE F] [DecidableLT F] [DecidableLE F]

theorem minimize_par {sqrt : F → F} {fs : Funs σ F} {x0 : Arr F} {cb : σ} {p q : Par F} {r : ResArr F}
    {calls : List (Arr F)} (h : Minimize sqrt fs x0 cb p r calls q) : q = p := by
  cases h <;> rfl

/-- The callables of `n` variables as callables of `m = n` variables. -/
def Callables.cast {n m : Nat} (h : n = m) (c : Callables n σ F) : Callables m σ F where
  sqrt := c.sqrt
  f x := ((c.f fun i => x (Fin.cast h i)).1, fun i => (c.f fun i => x (Fin.cast h i)).2 (Fin.cast h.symm i))
  progress st x g := c.progress st (fun i => x (Fin.cast h i)) fun i => g (Fin.cast h i)

theorem lbfgs_cast {n m : Nat} (h : n = m) {c : Callables n σ F} {p : Par F} {x0 : Vec n F} {cb : σ}
    {o : Out n F} (ho : Lbfgs c.env p x0 cb o) :
    Lbfgs (c.cast h).env p (fun i => x0 (Fin.cast h.symm i)) cb
      ⟨o.ret, fun i => o.x (Fin.cast h.symm i), o.trials.map fun x i => x (Fin.cast h.symm i),
       o.reports.map fun r => ⟨fun i => r.x (Fin.cast h.symm i), fun i => r.g (Fin.cast h.symm i), r.fx,
        r.xnorm, r.gnorm, r.step, r.k, r.ls⟩⟩ := by
  subst h
  have h1 : (o.trials.map fun (x : Vec n F) (i : Fin n) => x (Fin.cast rfl i)) = o.trials := by
    simp
  have h2 : (o.reports.map fun r => (⟨fun i => r.x (Fin.cast rfl i), fun i => r.g (Fin.cast rfl i), r.fx,
        r.xnorm, r.gnorm, r.step, r.k, r.ls⟩ : Report n F)) = o.reports := by
    simp
  rw [h1, h2]
  exact ho

end

end Verif.Lbfgs
