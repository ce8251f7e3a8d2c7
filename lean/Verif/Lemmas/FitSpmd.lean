import Verif.Lemmas.Fit
import Verif.Lemmas.Schedule
/-! Helper lemmas: the collectives of `fit`, and agreement of the processes. -/
namespace Verif.Fit
open Verif.Py Verif.MpiUtils Verif.Intersection

variable {K G S M RP : Type} {n : Nat}

/-- The collectives of `Bcast_from_root(…, root=0)`. -/
def bcastTags : List (Kind × Nat) := [(.bcast, 0), (.bcast, 0), (.bcastBuf, 0)]

/-- The collectives of `Gatherv_rows(…, root=0)`. -/
def gatherTags : List (Kind × Nat) := [(.gather, 0), (.reduceSum, 0), (.gatherv, 0)]

theorem follows_bcastFromRoot (r : Nat) (x : Obj K) : Follows (bcastFromRoot r 0 x) bcastTags := by
  unfold bcastFromRoot
  refine .lift_bind _ fun send => .lift_bind _ fun own => ?_
  refine .call_bind _ rfl fun shape => .call_bind _ rfl fun dtype => ?_
  refine .lift_bind _ fun buf => .lift_bind _ fun ty => .lift_bind _ fun mty => ?_
  exact .call_bind _ rfl fun o => .lift _

theorem follows_gathervRows (r : Nat) (x : Obj K) : Follows (gathervRows r 0 x) gatherTags := by
  unfold gathervRows
  refine .lift_bind _ fun send => .lift_bind _ fun send => .lift_bind _ fun n0 => ?_
  refine .call_bind _ rfl fun sizes => .call_bind _ rfl fun tot => ?_
  refine .lift_bind _ fun recv => .lift_bind _ fun mty => ?_
  exact .call_bind _ rfl fun o => .ret _

/-- The collectives of drawing `k` splits. -/
def drawTags (size k : Nat) : List (Kind × Nat) :=
  (List.replicate k (if size > 1 then bcastTags ++ bcastTags else [])).flatten

theorem follows_own {α : Type} {c : Prop} [Decidable c] (x : Except PyErr α) :
    Follows (K := K) (if c then (do let q ← Prog.lift x; Prog.ret (some q)) else Prog.ret none)
      [] := by
  split
  · exact .lift_bind _ fun q => .ret _
  · exact .ret _

theorem follows_drawBoots (env : Env K G S M RP) (size rank : Nat) (est : Bool) (k : Nat) (g : G) :
    Follows (drawBoots env size rank est k g) (drawTags size k) := by
  induction k generalizing g with
  | zero => exact .ret _
  | succ k ih =>
    unfold drawTags
    rw [List.replicate_succ, List.flatten_cons]
    simp only [drawBoots]
    refine Follows.bind ?_ fun p => ?_
    · split
      · refine (follows_own _).bind fun own => ?_
        refine (follows_bcastFromRoot _ _).bind fun train => ?_
        rw [← List.append_nil bcastTags]
        exact (follows_bcastFromRoot _ _).bind fun test => .ret _
      · exact .lift _
    · have h := ih p.2
      unfold drawTags at h
      rw [← List.append_nil (List.flatten _)]
      exact h.bind fun q => .ret _

/-- The collectives of the selection module. -/
def selTags (size : Nat) : List (Kind × Nat) :=
  if size > 1 then gatherTags ++ bcastTags else []

theorem follows_selection [Zero K] [DecidableEq K] (env : Env K G S M RP) (size rank : Nat)
    (boots : List Split) (s : S) : Follows (selection env size rank boots s) (selTags size) := by
  unfold selection selTags
  refine .lift_bind _ fun rows => ?_
  split
  · refine (follows_gathervRows _ _).bind fun r => ?_
    refine Follows.bind (ts := []) ?_ fun sup => ?_
    · split
      · split
        · exact .lift _
        · exact .fail _ _
      · exact .ret _
    · change Follows _ (bcastTags ++ [])
      exact (follows_bcastFromRoot _ _).bind fun a => .lift _
  · exact .lift _

/-- The collectives of the estimation module. -/
def estTags (size : Nat) : List (Kind × Nat) :=
  if size > 1 then gatherTags ++ (gatherTags ++ (bcastTags ++ (bcastTags ++ (bcastTags ++
    (bcastTags ++ [(.bcast, 0)]))))) else []

theorem follows_estimation [LinearOrder K] [Field K] (env : Env K G S M RP) (size rank : Nat)
    (supports : BArr) (nSup : Nat) (boots : List Split) :
    Follows (estimation env size rank supports nSup boots) (estTags size) := by
  unfold estimation estTags
  refine .lift_bind _ fun res => ?_
  split
  · refine (follows_gathervRows _ _).bind fun e => (follows_gathervRows _ _).bind fun c => ?_
    refine Follows.bind (ts := []) ?_ fun own => ?_
    · split
      · split
        · exact .lift _
        · exact .fail _ _
      · exact .ret _
    · refine (follows_bcastFromRoot _ _).bind fun _ => (follows_bcastFromRoot _ _).bind fun _ => ?_
      refine (follows_bcastFromRoot _ _).bind fun _ => (follows_bcastFromRoot _ _).bind fun _ => ?_
      refine .call_bind _ rfl fun o => .lift_bind _ fun rpMax => .lift_bind _ fun ci => .ret _
  · exact .lift_bind _ fun q => .lift_bind _ fun ci => .ret _

/-- The collectives of `fit`, the same on every process. -/
def fitTags (env : Env K G S M RP) (size : Nat) : List (Kind × Nat) :=
  drawTags size env.nBootsSel ++ (selTags size ++ (drawTags size env.nBootsEst ++ estTags size))

theorem follows_fit [LinearOrder K] [Field K] (env : Env K G S M RP) (size rank : Nat) (g : G)
    (s : S) : Follows (fit env size rank g s) (fitTags env size) := by
  unfold fit fitTags
  refine (follows_drawBoots env size rank false _ g).bind fun p => ?_
  refine (follows_selection env size rank _ s).bind fun supports => ?_
  refine .lift_bind _ fun nSup => (follows_drawBoots env size rank true _ _).bind fun q => ?_
  exact follows_estimation env size rank supports nSup _

/-! ### Agreement -/

theorem outcome_lift {α : Type} (x : Except PyErr α) :
    (Prog.lift x : Prog K α).outcome = some x := by cases x <;> rfl

/-- Whatever only rank 0 passes to `Bcast_from_root` arrives everywhere. -/
theorem bcast_agree (hn : 0 < n) {x : Fin n → Obj K} {a : NDArr K} (h0 : x ⟨0, hn⟩ = .arr a)
    (hx : ∀ r, r.val ≠ 0 → x r = .none) (hwf : a.WF) (hsup : Supported a.dtype)
    {v : Fin n → NDArr K} (h : Runs (fun r => bcastFromRoot r.val 0 (x r)) fun r => .ok (v r)) :
    v = fun _ => a.ascontiguous := by
  have := Runs.unique h (runs_bcastFromRoot hn x a h0 (fun r hr => .inl (hx r hr))
    (np2mpi_of_supported hsup) hwf)
  funext r
  have := congrFun this r
  injection this

theorem encodeB_wf {B : BArr} (hr : Rect B) : (encodeB B : NDArr K).WF := by
  cases B with
  | d0 b => simp [encodeB, NDArr.WF, shapeSize]
  | d1 xs => simp [encodeB, NDArr.WF, shapeSize]
  | d2 rows =>
    obtain ⟨m, hm⟩ := hr
    have hh : ∀ r ∈ rows, r.length = (rows.headD []).length := by
      intro r hr
      cases rows with
      | nil => cases hr
      | cons r0 rows => rw [hm r hr]; exact (hm r0 List.mem_cons_self).symm
    simp only [encodeB, NDArr.WF, shapeSize, List.length_map, flatten_length_uniform hh,
        List.foldr_cons, List.foldr_nil, Nat.mul_one]

theorem selection_agree [Zero K] [DecidableEq K] {env : Env K G S M RP} (hn : 1 < n)
    {boots : Fin n → List Split} {s : Fin n → S} {B : Fin n → BArr}
    (h : Runs (fun r : Fin n => selection env n r.val (boots r) (s r)) fun r => .ok (B r))
    (r r' : Fin n) : B r = B r' := by
  have hn0 : 0 < n := by omega
  unfold selection at h
  simp only [gt_iff_lt, hn, if_true] at h
  obtain ⟨rows, _, h⟩ := h.lift_bind_inv
  obtain ⟨gs, _, h⟩ := h.bind_inv_ok fun r => follows_gathervRows _ _
  obtain ⟨sup, hsup, h⟩ := h.bind_inv_ok (ts := []) fun r => by
    split
    · split
      · exact .lift _
      · exact .fail _ _
    · exact .ret _
  have hsup' := Runs.unique hsup (.done (out := fun r => if r.val = 0 then
      (match gs r with
        | some a => (do
            let A ← toArr3 env (env.fine n) a
            let B ← env.intersect A
            return Obj.arr (encodeB B))
        | none => .error .attributeError) else .ok .none) fun r => by
      by_cases hr : r.val = 0
      · simp only [hr, if_true]
        cases gs r with
        | none => rfl
        | some a => exact outcome_lift _
      · simp only [hr, if_false]; rfl)
  have h0 := congrFun hsup' ⟨0, hn0⟩
  simp only [if_true] at h0
  cases hg : gs ⟨0, hn0⟩ with
  | none => rw [hg] at h0; cases h0
  | some a =>
    rw [hg] at h0
    obtain ⟨A, _, h0⟩ := except_bind_ok h0.symm
    obtain ⟨B0, hB0, h0⟩ := except_bind_ok h0
    simp only [pure, Except.pure, Except.ok.injEq] at h0
    have hne : ∀ r : Fin n, r.val ≠ 0 → sup r = .none := by
      intro r hr
      have := congrFun hsup' r
      simp only [hr, if_false, Except.ok.injEq] at this
      exact this
    obtain ⟨v, hv, h⟩ := h.bind_inv_ok fun r => follows_bcastFromRoot _ _
    have hd : Supported (encodeB B0 : NDArr K).dtype := by cases B0 <;> simp [encodeB, Supported]
    have := bcast_agree hn0 h0.symm hne (encodeB_wf (rect_intersect hB0)) hd hv
    subst this
    have h1 := h.lift_inv r
    have h2 := h.lift_inv r'
    rw [h1] at h2
    injection h2

theorem estimation_agree [LinearOrder K] [Field K] {env : Env K G S M RP} (hn : 1 < n)
    (hI : GoodIntercept env) {B : BArr} {nSup : Nat} {boots : Fin n → List Split}
    {st : Fin n → FitState K}
    (h : Runs (fun r : Fin n => estimation env n r.val B nSup (boots r)) fun r => .ok (st r))
    (r r' : Fin n) : st r = st r' := by
  have hn0 : 0 < n := by omega
  unfold estimation at h
  simp only [gt_iff_lt, hn, if_true] at h
  obtain ⟨res, _, h⟩ := h.lift_bind_inv
  obtain ⟨e, he, h⟩ := h.bind_inv_ok fun r => follows_gathervRows _ _
  obtain ⟨c, hc, h⟩ := h.bind_inv_ok fun r => follows_gathervRows _ _
  -- only the dtype of the gathered arrays matters
  have hdt : ∀ (x : Fin n → NDArr K) (out : Fin n → Option (NDArr K)),
      (∀ r, (x r).dtype = .f64) →
      Runs (fun r => gathervRows r.val 0 (.arr (x r))) (fun r => .ok (out r)) →
      ∀ a, out ⟨0, hn0⟩ = some a → a.dtype = .f64 := by
    intro x out hx hR a ha
    unfold gathervRows at hR
    obtain ⟨snd, hsnd, hR⟩ := hR.lift_bind_inv
    obtain ⟨snd2, hsnd2, hR⟩ := hR.lift_bind_inv
    obtain ⟨n0, _, hR⟩ := hR.lift_bind_inv
    obtain ⟨sizes, _, hR⟩ := hR.call_bind_inv (.gather, 0) fun r => rfl
    obtain ⟨tot, _, hR⟩ := hR.call_bind_inv (.reduceSum, 0) fun r => rfl
    obtain ⟨recv, hrecv, hR⟩ := hR.lift_bind_inv
    obtain ⟨mty, _, hR⟩ := hR.lift_bind_inv
    obtain ⟨o, ho, hR⟩ := hR.call_bind_inv (.gatherv, 0) fun r => rfl
    have hs1 : (snd2 ⟨0, hn0⟩).dtype = .f64 := by
      have h1 := hsnd ⟨0, hn0⟩
      have h2 := hsnd2 ⟨0, hn0⟩
      simp only [checkValid, Except.ok.injEq] at h1
      rw [← h1] at h2
      simp only [Except.ok.injEq] at h2
      rw [← h2, ascontiguous_dtype, hx]
    have hr0 := hrecv ⟨0, hn0⟩
    simp only [if_true] at hr0
    have hres := Runs.unique hR (Runs.ret _)
    have hres0 := congrFun hres ⟨0, hn0⟩
    simp only [ha, Except.ok.injEq] at hres0
    split at hr0
    · injection hr0 with hr0
      rw [← hr0] at hres0
      have hdel := Runs.unique ho (Runs.callE (.gatherv, 0) hn0 fun _ => rfl)
      have hdel0 := congrFun hdel ⟨0, hn0⟩
      simp only [deliver, hn0, if_true, ← hr0] at hdel0
      split at hdel0
      · injection hdel0 with hdel0
        rw [hdel0] at hres0
        simp only [Option.some.injEq] at hres0
        rw [hres0]
        exact hs1
      · cases hdel0
    · cases hr0
  obtain ⟨own, hown, h⟩ := h.bind_inv_ok (ts := []) fun r => by
    split
    · split
      · exact .lift _
      · exact .fail _ _
    · exact .ret _
  have hown' := Runs.unique hown (.done (out := fun r => if r.val = 0 then
      (match e r, c r with
        | some e, some c => (do
            let q ← reduce env nSup e c
            return some q)
        | _, _ => .error .attributeError) else .ok none) fun r => by
      by_cases hr : r.val = 0
      · simp only [hr, if_true]
        cases e r with
        | none => rfl
        | some a =>
          cases c r with
          | none => rfl
          | some b => exact outcome_lift _
      · simp only [hr, if_false]; rfl)
  have h0 := congrFun hown' ⟨0, hn0⟩
  simp only [if_true] at h0
  cases hge : e ⟨0, hn0⟩ with
  | none => rw [hge] at h0; cases h0
  | some ea =>
    cases hgc : c ⟨0, hn0⟩ with
    | none => rw [hge, hgc] at h0; cases h0
    | some ca =>
      rw [hge, hgc] at h0
      obtain ⟨q, hq, h0⟩ := except_bind_ok h0.symm
      simp only [pure, Except.pure, Except.ok.injEq] at h0
      obtain ⟨w1, w2, w3, w4⟩ := reduce_wf hI
        (hdt _ _ (fun _ => rfl) he ea hge) (hdt _ _ (fun _ => rfl) hc ca hgc) hq
      have hne : ∀ r : Fin n, r.val ≠ 0 → own r = none := by
        intro r hr
        have := congrFun hown' r
        simp only [hr, if_false, Except.ok.injEq] at this
        exact this
      have hnel : ∀ (f : _ → NDArr K) (r : Fin n), r.val ≠ 0 →
          (own r).elim Obj.none (fun q => Obj.arr (f q)) = .none := by
        intro f r hr; rw [hne r hr]; rfl
      obtain ⟨v1, hv1, h⟩ := h.bind_inv_ok fun r => follows_bcastFromRoot _ _
      obtain ⟨v2, hv2, h⟩ := h.bind_inv_ok fun r => follows_bcastFromRoot _ _
      obtain ⟨v3, hv3, h⟩ := h.bind_inv_ok fun r => follows_bcastFromRoot _ _
      obtain ⟨v4, hv4, h⟩ := h.bind_inv_ok fun r => follows_bcastFromRoot _ _
      have e1 := bcast_agree hn0 (a := q.1) (by rw [← h0]; rfl) (hnel _) w1.1 w1.2.1 hv1
      have e2 := bcast_agree hn0 (a := q.2.1) (by rw [← h0]; rfl) (hnel _) w2.1 w2.2.1 hv2
      have e3 := bcast_agree hn0 (a := q.2.2.2.1) (by rw [← h0]; rfl) (hnel _) w3.1 w3.2.1 hv3
      have e4 := bcast_agree hn0 (a := q.2.2.2.2) (by rw [← h0]; rfl) (hnel _) w4.1 w4.2.1 hv4
      subst e1 e2 e3 e4
      obtain ⟨o, ho, h⟩ := h.call_bind_inv (.bcast, 0) fun r => rfl
      have eo := Runs.unique ho (runs_bcast ⟨0, hn0⟩ _ (w := .nats q.2.2.1) (by rw [← h0]; rfl))
      have eo' : o = fun _ => .nats q.2.2.1 := by
        funext r; have := congrFun eo r; injection this
      subst eo'
      obtain ⟨rp, hrp, h⟩ := h.lift_bind_inv
      obtain ⟨ci, hci, h⟩ := h.lift_bind_inv
      have hf := Runs.unique h (Runs.ret _)
      have hrp1 := hrp r; have hrp2 := hrp r'
      rw [hrp1] at hrp2; injection hrp2 with hrp2
      have hci1 := hci r; have hci2 := hci r'
      rw [hci1] at hci2; injection hci2 with hci2
      have f1 := congrFun hf r; have f2 := congrFun hf r'
      injection f1 with f1; injection f2 with f2
      rw [f1, f2, hrp2, hci2]

theorem fit_agree [LinearOrder K] [Field K] {env : Env K G S M RP} (hI : GoodIntercept env)
    {g : Fin n → G} {s : Fin n → S} {st : Fin n → FitState K}
    (h : Runs (fun r : Fin n => fit env n r.val (g r) (s r)) fun r => .ok (st r))
    (r r' : Fin n) : st r = st r' := by
  by_cases hn : 1 < n
  · unfold fit at h
    obtain ⟨p, _, h⟩ := h.bind_inv_ok fun r => follows_drawBoots _ _ _ _ _ _
    obtain ⟨B, hB, h⟩ := h.bind_inv_ok fun r => follows_selection _ _ _ _ _
    obtain ⟨k, hk, h⟩ := h.lift_bind_inv
    obtain ⟨q, _, h⟩ := h.bind_inv_ok fun r => follows_drawBoots _ _ _ _ _ _
    have hB' : B = fun _ => B r := funext fun r' => selection_agree hn hB r' r
    have hk' : k = fun _ => k r := by
      funext r'
      have h1 := hk r; have h2 := hk r'
      rw [congrFun hB' r', h1] at h2
      injection h2 with h2
      exact h2.symm
    rw [hB', hk'] at h
    exact estimation_agree hn hI h r r'
  · have : r = r' := by apply Fin.ext; omega
    rw [this]

end Verif.Fit
