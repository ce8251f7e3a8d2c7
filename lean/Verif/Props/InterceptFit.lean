import Verif.Lemmas.InterceptFit
/-!
The intercept of a classifier after the coefficients were averaged (C104).
-/
namespace Verif.Logistic
open Verif.Utils Verif.Spec.InterceptFit Verif.Spec.Logistic

variable {n k : Nat}

/-- C104, two classes.  The optimiser minimises the average negative log-likelihood of the labels and is
    given its exact derivative.  Whatever it returns, no intercept is better by more than the remaining
    slope times the distance; where the slope vanishes, the average predicted probability of class 1 is its
    frequency. -/
theorem C104_binary [NeZero n] (eta : Fin n → ℝ) (y : Fin n → Fin 2) (opt : ℝ → ℝ) :
    (∀ b, (interceptBin eta y b).1 = nll eta y b ∧ HasDerivAt (nll eta y) (interceptBin eta y b).2 b) ∧
    (∀ b', nll eta y (refitBin opt) ≤
      nll eta y b' + |(interceptBin eta y (opt 0)).2| * |b' - refitBin opt|) ∧
    ((interceptBin eta y (opt 0)).2 = 0 →
      (∑ i, prob1 (eta i + refitBin opt)) / n = (count y 1 : ℝ) / n) := by
  refine ⟨fun b => ⟨interceptBin_value eta y b, nll_deriv eta y b⟩, fun b' => ?_, fun h => ?_⟩
  · have := nll_tangent eta y (opt 0) b'
    have h2 := neg_abs_le ((interceptBin eta y (opt 0)).2 * (b' - opt 0))
    rw [abs_mul] at h2
    show nll eta y (opt 0) ≤ _ + _ * |b' - opt 0|
    linarith
  · have hs := sum_label y
    unfold interceptBin mean at h
    dsimp only at h
    rw [hs] at h
    simp only [sigmoid_expit, ← prob1_eq] at h
    show (∑ i, prob1 (eta i + opt 0)) / n = _
    linarith

/-- Labels 0 and 1 with equal predictors: the slope at intercept 0 vanishes. -/
example : (interceptBin (fun _ => 0) (![0, 1] : Fin 2 → Fin 2) 0).2 = 0 := by
  rw [interceptBin_grad, Fin.sum_univ_two]
  simp [sgn, expit]

/-- C104, several classes.  The optimiser minimises the average negative log-likelihood over the
    intercepts of all classes but the first, whose intercept is 1, and is given the exact gradient.
    The result is shifted so that its largest entry is 0, which changes no prediction; no other
    intercepts, for all classes, are better by more than the remaining gradient times the distance of the
    differences to the first class; where the gradient vanishes, the average predicted probability of every
    class is its frequency. -/
theorem C104_multinomial [NeZero n] (eta : Fin n → Fin (k + 1) → ℝ) (y : Fin n → Fin (k + 1))
    (opt : (Fin k → ℝ) → Fin k → ℝ) :
    (∀ s d : Fin k → ℝ, (interceptMulti eta y s).1 = nllM eta y (Fin.cons 1 s) ∧
      HasDerivAt (fun t : ℝ => nllM eta y (Fin.cons 1 fun c => s c + t * d c))
        (∑ c, (interceptMulti eta y s).2 c * d c) 0) ∧
    (∀ c, refitMulti opt c ≤ 0) ∧ (∃ c, refitMulti opt c = 0) ∧
    (∀ B' : Fin (k + 1) → ℝ, nllM eta y (refitMulti opt) ≤ nllM eta y B' +
      ∑ c : Fin k, |(interceptMulti eta y (opt fun _ => 0)).2 c| *
        |(B' c.succ - B' 0) - (refitMulti opt c.succ - refitMulti opt 0)|) ∧
    ((∀ c, (interceptMulti eta y (opt fun _ => 0)).2 c = 0) → ∀ c,
      (∑ i, prob (fun c => eta i c + refitMulti opt c) c) / n = (count y c : ℝ) / n) := by
  set s := opt fun _ => 0 with hs
  set B : Fin (k + 1) → ℝ := Fin.cons 1 s with hB
  set m := Finset.univ.sup' Finset.univ_nonempty B with hm
  have hR : refitMulti opt = fun c => B c + -m := by
    funext c
    show B c - m = _
    ring
  have hdiff : ∀ c : Fin k, refitMulti opt c.succ - refitMulti opt 0 = B c.succ - B 0 := by
    intro c; rw [hR]; ring
  refine ⟨fun s d => ⟨interceptMulti_value eta y s, ?_⟩, fun c => ?_, ?_, fun B' => ?_, fun h c => ?_⟩
  · have := nllM_deriv eta y (Fin.cons 1 s) (Fin.cons 0 d)
    have hf : (fun t : ℝ => nllM eta y (fun c => (Fin.cons 1 s : Fin (k + 1) → ℝ) c +
        t * (Fin.cons 0 d : Fin (k + 1) → ℝ) c)) =
        fun t : ℝ => nllM eta y (Fin.cons 1 fun c => s c + t * d c) := by
      funext t
      congr 1
      funext c
      refine Fin.cases ?_ (fun j => ?_) c
      · simp
      · simp
    rw [hf, Fin.sum_univ_succ] at this
    simp only [Fin.cons_zero, mul_zero, zero_add, Fin.cons_succ, ← interceptMulti_grad] at this
    exact this
  · rw [hR]
    have := Finset.le_sup' B (Finset.mem_univ c)
    show B c + -m ≤ 0
    linarith
  · obtain ⟨c, -, hc⟩ := Finset.exists_mem_eq_sup' Finset.univ_nonempty B
    refine ⟨c, ?_⟩
    rw [hR]
    show B c + -m = 0
    rw [hm, hc]
    ring
  · have ht := nllM_tangent eta y B (fun c => B' c + (B 0 - B' 0))
    rw [nllM_shift, Fin.sum_univ_succ] at ht
    rw [hR, nllM_shift]
    have hle : -(∑ c : Fin k, |(interceptMulti eta y s).2 c| *
        |(B' c.succ - B' 0) - (B c.succ + -m - (B 0 + -m))|) ≤
        ∑ c : Fin k, fullGrad eta y B c.succ * (B' c.succ + (B 0 - B' 0) - B c.succ) := by
      rw [← Finset.sum_neg_distrib]
      refine Finset.sum_le_sum fun c _ => ?_
      rw [interceptMulti_grad, ← abs_mul]
      refine le_trans (neg_abs_le _) (le_of_eq ?_)
      show fullGrad eta y B c.succ * _ = _
      ring
    have h0 : fullGrad eta y B 0 * (B' 0 + (B 0 - B' 0) - B 0) = 0 := by ring
    rw [h0, zero_add] at ht
    linarith
  · have hsucc : ∀ c : Fin k, fullGrad eta y B c.succ = 0 := fun c => by
      rw [← interceptMulti_grad]; exact h c
    have h0 : fullGrad eta y B 0 = 0 := by
      have := sum_fullGrad eta y B
      rw [Fin.sum_univ_succ] at this
      simpa [hsucc] using this
    have hall : fullGrad eta y B c = 0 := Fin.cases h0 hsucc c
    rw [hR]
    simp only [prob_add_shift]
    unfold fullGrad at hall
    rw [Finset.sum_sub_distrib, sum_ind] at hall
    have hn : (0 : ℝ) < n := by exact_mod_cast Nat.pos_of_ne_zero (NeZero.ne n)
    have : (∑ i, prob (fun c => eta i c + B c) c) - count y c = 0 := by
      rcases mul_eq_zero.1 hall with h | h
      · exact absurd h (by positivity)
      · exact h
    congr 1
    linarith

/-- Three classes, one sample each, equal predictors: the gradient vanishes for equal intercepts. -/
example : ∀ c, (interceptMulti (fun _ _ => 0) (![0, 1, 2] : Fin 3 → Fin 3) (fun _ => 1)).2 c = 0 := by
  have hB : (Fin.cons 1 fun _ => 1 : Fin 3 → ℝ) = fun _ => 1 := by
    funext c
    refine Fin.cases rfl (fun j => rfl) c
  intro c
  rw [interceptMulti_grad]
  unfold fullGrad prob
  rw [hB]
  have he : (3 : ℝ) * (Real.exp 1 / (3 * Real.exp 1)) = 1 := by
    have := Real.exp_pos 1
    field_simp
  have h1 : ((Finset.univ : Finset (Fin 3)).filter fun x => (![0, 1, 2] : Fin 3 → Fin 3) x = 1).card = 1 := by decide
  have h2 : ((Finset.univ : Finset (Fin 3)).filter fun x => (![0, 1, 2] : Fin 3 → Fin 3) x = 2).card = 1 := by decide
  fin_cases c
  · simp [he, h1]
  · simp [he, h2]

end Verif.Logistic
