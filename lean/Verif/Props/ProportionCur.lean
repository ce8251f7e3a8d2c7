import Verif.Lemmas.ProportionCur
import Verif.Props.Cur
/-!
C146: `stability_selection` of `UoI_CUR` as a proportion, "the proportion of bootstraps" that a column must appear in
(`/repo/src/pyuoi/decomposition/utils.py:53-69`), in double precision.
-/
namespace Verif.Props.ProportionCur
open Verif.Py Verif.Cur Verif.Spec.Cur Verif.Proportion Verif.SplitSize Verif.Spec.SplitSize Verif.ProportionCur Verif.Spec.ProportionCur
variable {K : Type} [Field K] [LinearOrder K]

/-- C146 (partial): every column that some rank selects in the proportion of the bootstraps is selected, and no column that is
    more than one bootstrap short of it for every rank.  Missing: columns that are short by one bootstrap or less, see
    `C146_negation`. -/
theorem C146_partial [IsStrictOrderedRing K] {rnd : ℚ → ℚ} (hr : Nearest rnd) {S : Type} {n d : Nat} {argsort : List K → List Nat}
    {e : Sklearn S K n d} {nBoots : Nat} {maxK : Int} {fracOne : Bool} {p : ℚ} {rs : RandomState} {X : Fin n → Fin d → K}
    {ks : KsArg K} {cs : CsArg K} {w : World S} {draws : Nat → Nat → Nat → K} {f : Fitted K}
    (h0 : 0 ≤ p) (h1 : p ≤ 1) (hd : nBoots * p.den ≤ 2 ^ 50)
    (h : ProportionCur.fit rnd argsort e nBoots maxK fracOne p rs X ks cs w draws = .ok f) :
    ∃ (shape : List Nat) (ks' : List Int) (cs' : List (Ext K)) (V : Nat → Fin d → Nat → K),
      checkKsCs maxK ks cs = .ok (shape, ks', cs') ∧
      (bootLoop e rs fracOne X nBoots w).map (List.map Prod.snd) = .ok ((List.range nBoots).map V) ∧
      ∀ i : Fin d, (Reaches nBoots V ks' cs' draws (p * nBoots) i → i.val ∈ f.columnIndices) ∧
        (i.val ∈ f.columnIndices → Reaches nBoots V ks' cs' draws (p * nBoots - 1) i ∧ Reaches nBoots V ks' cs' draws 1 i) := by
  obtain ⟨-, -, shape, ks', cs', t, V, c1, c2, c3, c4⟩ := C53_stable h
  obtain ⟨ht, ht1⟩ := threshold_ok c2
  obtain ⟨b1, -, -, -, b5⟩ := thr_bounds hr h0 h1 hd
  refine ⟨shape, ks', cs', V, c1, c3, fun i => ⟨?_, fun hi => ?_⟩⟩
  · rintro ⟨ki, hk, hc, hm⟩
    refine (c4 i).2 ⟨ki, hk, hc, ?_⟩
    have : ((t : ℤ) : ℚ) ≤ timesDrawn nBoots V ks'[ki].toNat cs'[ki] (fun b => draws b ki) i := by
      rw [ht]; exact b1.trans hm
    exact_mod_cast this
  · obtain ⟨ki, hk, hc, hm⟩ := (c4 i).1 hi
    have hm' : t ≤ timesDrawn nBoots V ks'[ki].toNat cs'[ki] (fun b => draws b ki) i := hm
    refine ⟨⟨ki, hk, hc, ?_⟩, ki, hk, hc, by exact_mod_cast ht1.trans hm'⟩
    by_contra hcc
    push Not at hcc
    have hcc' : ((timesDrawn nBoots V ks'[ki].toNat cs'[ki] (fun b => draws b ki) i : ℤ) : ℚ) + 1 < p * nBoots := by
      push_cast; linarith
    have := (b5 _ (.inr hcc')).2 (Int.le_floor.2 (by push_cast at hcc' ⊢; exact hcc'.le))
    omega

/-- C146: a proportion of a whole number of bootstraps that is not rounded down when it is read gives exactly the columns that
    some rank selects in this proportion of the bootstraps. -/
theorem C146_exact [IsStrictOrderedRing K] {rnd : ℚ → ℚ} (hr : Nearest rnd) {S : Type} {n d : Nat} {argsort : List K → List Nat}
    {e : Sklearn S K n d} {nBoots : Nat} {maxK : Int} {fracOne : Bool} {p : ℚ} {rs : RandomState} {X : Fin n → Fin d → K}
    {ks : KsArg K} {cs : CsArg K} {w : World S} {draws : Nat → Nat → Nat → K} {f : Fitted K}
    (h0 : 0 ≤ p) (h1 : p ≤ 1) (hd : nBoots * p.den ≤ 2 ^ 50) (hu : p ≤ rnd p) (hw : ∃ k : Nat, p * nBoots = k)
    (h : ProportionCur.fit rnd argsort e nBoots maxK fracOne p rs X ks cs w draws = .ok f) :
    ∃ (shape : List Nat) (ks' : List Int) (cs' : List (Ext K)) (V : Nat → Fin d → Nat → K),
      checkKsCs maxK ks cs = .ok (shape, ks', cs') ∧
      (bootLoop e rs fracOne X nBoots w).map (List.map Prod.snd) = .ok ((List.range nBoots).map V) ∧
      ∀ i : Fin d, i.val ∈ f.columnIndices ↔ Reaches nBoots V ks' cs' draws (p * nBoots) i := by
  obtain ⟨-, -, shape, ks', cs', t, V, c1, c2, c3, c4⟩ := C53_stable h
  obtain ⟨ht, ht1⟩ := threshold_ok c2
  obtain ⟨k, hk⟩ := hw
  rw [(thr_bounds hr h0 h1 hd).2.2.2.1 hu, hk, Int.floor_natCast] at ht
  have ht : t = k := by exact_mod_cast ht
  refine ⟨shape, ks', cs', V, c1, c3, fun i => ?_⟩
  rw [c4 i, hk, ht]
  unfold Reaches timesDrawn
  refine exists_congr fun ki => exists_congr fun _ => exists_congr fun _ => ?_
  exact_mod_cast Iff.rfl

/-- C146: a proportion of less than one bootstrap is refused, one of two or more is not. -/
theorem C146_accepted {rnd : ℚ → ℚ} (hr : Nearest rnd) {nBoots : Nat} {p : ℚ} (h0 : 0 ≤ p) (h1 : p ≤ 1)
    (hd : nBoots * p.den ≤ 2 ^ 50) {S : Type} {n d : Nat} {argsort : List K → List Nat}
    {e : Sklearn S K n d} {maxK : Int} {fracOne : Bool} {rs : RandomState} {X : Fin n → Fin d → K}
    {ks : KsArg K} {cs : CsArg K} {w : World S} {draws : Nat → Nat → Nat → K}
    {ks' : List Int} {cs' : List (Ext K)} {m : Nat} {bs : List (List (Fin d → K) × (Fin d → Nat → K))}
    (hk : checkKsCs maxK ks cs = .ok ([m], ks', cs')) (hb : bootLoop e rs fracOne X nBoots w = .ok bs) :
    (p * nBoots < 1 → ProportionCur.fit rnd argsort e nBoots maxK fracOne p rs X ks cs w draws = .error .valueError) ∧
    (2 ≤ p * nBoots → ∃ f, ProportionCur.fit rnd argsort e nBoots maxK fracOne p rs X ks cs w draws = .ok f) := by
  obtain ⟨b1, b2, -⟩ := thr_bounds hr h0 h1 hd
  have hn : (0 : ℚ) ≤ nBoots := Nat.cast_nonneg _
  constructor
  · intro hp
    have : thr rnd p nBoots < 1 := by
      have : (thr rnd p nBoots : ℚ) < ((1 : ℤ) : ℚ) := by push_cast; linarith
      exact_mod_cast this
    simp only [ProportionCur.fit, Cur.fit, hk, threshold_eq]
    rw [if_neg (by omega)]
  · intro hp
    have c1 : 1 ≤ thr rnd p nBoots := by
      have : (0 : ℚ) < thr rnd p nBoots := by linarith
      have : 0 < thr rnd p nBoots := by exact_mod_cast this
      omega
    have c2 : thr rnd p nBoots ≤ nBoots := by
      have : (thr rnd p nBoots : ℚ) ≤ ((nBoots : ℤ) : ℚ) := b1.trans (by push_cast; nlinarith)
      exact_mod_cast this
    simp only [ProportionCur.fit, Cur.fit, hk, threshold_eq, hb]
    rw [if_pos ⟨c2, c1⟩]
    simp only [List.length_singleton, ne_eq, not_true_eq_false, if_false]
    generalize hidx : combine argsort rs (bs.map Prod.snd) ks' cs' (thr rnd p nBoots).toNat draws = idx
    cases idx with
    | nil => exact ⟨_, rfl⟩
    | cons i l =>
      have hi : ∀ j ∈ i :: l, j < d := by
        rw [← hidx]
        intro j hj
        obtain ⟨j', -, rfl⟩ := List.mem_map.1 hj
        exact j'.2
      simp only [takeCols]
      rw [if_pos hi]
      exact ⟨_, rfl⟩

/-- One singular vector, (3/5, 4/5), in every bootstrap; the splits keep both rows. -/
def demoSk : Sklearn Nat ℚ 2 2 where
  seed _ := 0
  split s := (.ok [0, 1], s)
  svd _ s := (.ok fun i _ => if i.val = 0 then 3 / 5 else 4 / 5, s)

/-- The draws: those of column 0 are zero in the first `m` bootstraps; the others are too large. -/
def demoDraws (m : Nat) : Nat → Nat → Nat → ℚ := fun b _ i => if i = 0 ∧ b < m then 0 else 9 / 10

/-- `UoI_CUR(n_boots=n, max_k=1, boots_frac=1, stability_selection=p).fit(X, cs=1)` with column 0 drawn `m` times. -/
def demoFit (rnd : ℚ → ℚ) (n m : Nat) (p : ℚ) : Except PyErr (Fitted ℚ) :=
  ProportionCur.fit rnd (fun l => List.range l.length) demoSk n 1 true p .none (fun i j => (i.val + j.val : ℚ)) .none (.int 1)
    ⟨0, 0⟩ (demoDraws m)

theorem demoFit_eq {rnd : ℚ → ℚ} {n m t : Nat} {p : ℚ} (ht : thr rnd p n = t) (h : 1 ≤ t ∧ t ≤ n) :
    demoFit rnd n m p = Cur.fit (fun l => List.range l.length) demoSk ⟨fun q => .fin q, fun _ => 0⟩ n 1 true (.int t) .none
      (fun i j => (i.val + j.val : ℚ)) .none (.int 1) ⟨0, 0⟩ (demoDraws m) := by
  have e : threshold (doubles rnd) (.float (.fin (rnd p))) n = threshold ⟨fun q => .fin q, fun _ => 0⟩ (.int t) n := by
    rw [threshold_eq, ht]; rfl
  simp only [demoFit, ProportionCur.fit, Cur.fit, e]

example : ∃ f, demoFit near53 24 12 (1 / 2) = .ok f ∧ f.columnIndices = [0] := by
  have r : near53 (1 / 2) = 1 / 2 := rnd_rep near53_nearest ⟨1, -1, by norm_num, by norm_num⟩
  have t : thr near53 (1 / 2) 24 = (12 : Nat) := by
    rw [(thr_bounds near53_nearest (by norm_num) (by norm_num) (by decide +kernel)).2.2.2.1 (by rw [r])]; norm_num
  rw [demoFit_eq t (by decide)]
  refine ⟨⟨[0], [[0], [1]]⟩, ?_, rfl⟩
  have : ∀ r : Except PyErr (Fitted ℚ), r.map (fun f => (f.columnIndices, f.components)) = .ok ([0], [[0], [1]]) →
      r = .ok ⟨[0], [[0], [1]]⟩ := by
    rintro (e | ⟨a, b⟩) h
    · cases h
    · cases h; rfl
  exact this _ (by decide +kernel)

example : demoFit near53 24 12 (1 / 100) = .error .valueError := by
  have hk : checkKsCs 1 (.none : KsArg ℚ) (.int 1) = .ok ([1], [1], [.fin 1]) := by decide +kernel
  have hb : ∃ bs, bootLoop demoSk .none true (fun i j => (i.val + j.val : ℚ)) 24 ⟨0, 0⟩ = .ok bs := ⟨_, rfl⟩
  obtain ⟨bs, hb⟩ := hb
  exact (C146_accepted near53_nearest (p := 1 / 100) (by norm_num) (by norm_num) (by decide +kernel) hk hb).1 (by norm_num)

/-- C146 is false: a column that was drawn in 21 of 24 bootstraps is selected for 0.9, and one drawn in 56 of 100 for 0.57, for
    every rounding to nearest. -/
theorem C146_negation :
    (∀ rnd : ℚ → ℚ, Nearest rnd →
      (demoFit rnd 24 21 (9 / 10)).map Fitted.columnIndices = .ok [0] ∧
      (demoFit rnd 100 56 (57 / 100)).map Fitted.columnIndices = .ok [0]) ∧
    (bootLoop demoSk .none true (fun i j => (i.val + j.val : ℚ)) 100 ⟨0, 0⟩).map (List.map fun b => (b.2 0 0, b.2 1 0)) =
      .ok (List.replicate 100 (3 / 5, 4 / 5)) ∧
    (∀ V : Nat → Fin 2 → Nat → ℚ, (∀ b, V b 0 0 = 3 / 5) →
      timesDrawn 24 V 1 (.fin 1) (fun b => demoDraws 21 b 0) 0 = 21 ∧
      timesDrawn 100 V 1 (.fin 1) (fun b => demoDraws 56 b 0) 0 = 56) ∧
    (21 : ℚ) < 9 / 10 * 24 ∧ (56 : ℚ) < 57 / 100 * 100 := by
  have draw : ∀ (V : Nat → Fin 2 → Nat → ℚ), (∀ b, V b 0 0 = 3 / 5) → ∀ m b,
      Drawn (V b) 1 (.fin 1) (demoDraws m b 0) 0 ↔ b < m := by
    intro V hV m b
    simp only [Drawn, share, demoDraws, Finset.sum_range_one, hV]
    by_cases hb : b < m
    · simp [hb]
    · simp [hb]; norm_num
  refine ⟨fun rnd h => ⟨?_, ?_⟩, by decide +kernel, fun V hV => ⟨?_, ?_⟩, by norm_num, by norm_num⟩
  · rw [demoFit_eq (t := 21) (thr_nine_tenths h) (by decide)]; decide +kernel
  · rw [demoFit_eq (t := 56) (thr_57 h) (by decide)]; decide +kernel
  · simp only [timesDrawn, draw V hV]; decide +kernel
  · simp only [timesDrawn, draw V hV]; decide +kernel

end Verif.Props.ProportionCur
