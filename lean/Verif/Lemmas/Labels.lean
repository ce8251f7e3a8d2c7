import Verif.Model.Labels
import Verif.Spec.Labels
import Mathlib.Order.Monotone.Basic
import Mathlib.Data.List.NodupEquivFin
namespace Verif.Labels
open Verif.Py

section uniq
variable {L M : Type} [LinearOrder L] [LinearOrder M]

theorem mem_uniq {y : List L} {l : L} : l ∈ uniq y ↔ l ∈ y := by
  simp [uniq]

theorem uniq_nodup (y : List L) : (uniq y).Nodup :=
  (List.perm_insertionSort (· ≤ ·) y.dedup).nodup_iff.mpr (List.nodup_dedup y)

theorem uniq_sorted (y : List L) : (uniq y).Pairwise (· ≤ ·) :=
  List.pairwise_insertionSort (· ≤ ·) y.dedup

theorem uniq_strict (y : List L) : (uniq y).Pairwise (· < ·) := by
  refine ((uniq_sorted y).and (uniq_nodup y)).imp ?_
  rintro a b ⟨h, h'⟩
  exact lt_of_le_of_ne h h'

/-- A strictly increasing list is determined by its elements. -/
theorem strict_unique {a b : List L} (ha : a.Pairwise (· < ·)) (hb : b.Pairwise (· < ·))
    (h : ∀ l, l ∈ a ↔ l ∈ b) : a = b := by
  have na : a.Nodup := ha.imp fun h => ne_of_lt h
  have nb : b.Nodup := hb.imp fun h => ne_of_lt h
  exact ((List.perm_ext_iff_of_nodup na nb).mpr h).eq_of_pairwise
    (fun x y _ _ h h' => absurd h (lt_asymm h')) ha hb

theorem uniq_eq {y a : List L} (ha : a.Pairwise (· < ·)) (h : ∀ l, l ∈ a ↔ l ∈ y) : uniq y = a :=
  strict_unique (uniq_strict y) ha fun l => by rw [mem_uniq, h]

theorem uniq_map {f : L → M} (hf : StrictMono f) (y : List L) : uniq (y.map f) = (uniq y).map f := by
  refine uniq_eq ?_ fun l => by simp [mem_uniq]
  exact List.pairwise_map.mpr ((uniq_strict y).imp fun h => hf h)

theorem idxOf_map {f : L → M} (hf : Function.Injective f) (l : List L) (a : L) :
    (l.map f).idxOf (f a) = l.idxOf a := by
  induction l with
  | nil => rfl
  | cons b l ih =>
    by_cases h : b = a
    · subst h; simp
    · rw [List.map_cons, List.idxOf_cons_ne _ (fun e => h (hf e)), List.idxOf_cons_ne _ h, ih]

theorem encode_map {f : L → M} (hf : StrictMono f) (y : List L) : encode (y.map f) = encode y := by
  unfold encode
  rw [uniq_map hf, List.map_map]
  exact List.map_congr_left fun l _ => idxOf_map hf.injective _ _

theorem encode_lt {y : List L} {c : Nat} (h : c ∈ encode y) : c < (uniq y).length := by
  obtain ⟨l, hl, rfl⟩ := List.mem_map.mp h
  exact List.idxOf_lt_length_iff.mpr (mem_uniq.mpr hl)

theorem mem_encode {y : List L} {c : Nat} : c ∈ encode y ↔ c < (uniq y).length := by
  refine ⟨encode_lt, fun h => List.mem_map.mpr ⟨(uniq y)[c], mem_uniq.mp (List.getElem_mem h), ?_⟩⟩
  exact (uniq_nodup y).idxOf_getElem c h

theorem uniq_encode (y : List L) : uniq (encode y) = List.range (uniq y).length :=
  uniq_eq List.pairwise_lt_range fun l => by rw [mem_encode, List.mem_range]

theorem encode_getElem? (y : List L) {c : Nat} {l : L} (hl : l ∈ y) (hc : (uniq y).idxOf l = c) :
    (uniq y)[c]? = some l := by
  subst hc
  exact List.getElem?_idxOf (mem_uniq.mpr hl)

/-- Labels that already are the numbers from zero on are encoded by themselves. -/
theorem encode_range {y : List Nat} {k : Nat} (h : uniq y = List.range k) : encode y = y := by
  unfold encode
  conv_rhs => rw [← List.map_id y]
  refine List.map_congr_left fun c hc => ?_
  rw [h]
  have hk : c < k := by rw [← mem_uniq, h] at hc; exact List.mem_range.mp hc
  have := (List.nodup_range (n := k)).idxOf_getElem c (by simpa using hk)
  simpa using this

theorem length_encode (y : List L) : (encode y).length = y.length := by simp [encode]

end uniq
section score
variable {L : Type} [LinearOrder L]

theorem neg_sum_div (l : List ℝ) (n : ℝ) : -((l.map fun v => -v).sum / n) = l.sum / n := by
  have : (l.map fun v => -v).sum = -l.sum := by
    induction l with
    | nil => simp
    | cons v l ih => rw [List.map_cons, List.sum_cons, ih, List.sum_cons]; ring
  rw [this, neg_div, neg_neg]

/-- The score is the mean of what each sample contributes. -/
theorem logScore_of {num : Nat → L} {classes : List L} {y : List Nat} {pr : List (List ℝ)} {k : Nat}
    (hk : classes.length = k) (h2 : 2 ≤ k) (ht : Spec.Table k y pr) (sel : Nat → Nat)
    (h : ∀ c ∈ y, ∀ r : List ℝ, r.length = k →
      (List.zipWith (fun t q => ((t : Nat) : ℝ) * Real.log q) (binarize num classes c) r).sum =
        Real.log (r.getD (sel c) 0)) :
    logScore num classes y pr = .ok (Spec.meanLogProb (y.map sel) pr) := by
  obtain ⟨hl, hr, -⟩ := ht
  have h1 : ¬ classes.length ≤ 1 := by omega
  have hr' : ∀ r ∈ pr, r.length = classes.length := by rw [hk]; exact hr
  have hneg : (List.zipWith (fun c r => -(List.zipWith (fun t q => ((t : Nat) : ℝ) * Real.log q)
      (binarize num classes c) r).sum) y pr) =
      (List.zipWith (fun c (r : List ℝ) => Real.log (r.getD c 0)) (y.map sel) pr).map fun v => -v := by
    clear hl
    induction y generalizing pr with
    | nil => rfl
    | cons c y ih =>
      cases pr with
      | nil => rfl
      | cons r pr =>
        have hr1 := List.forall_mem_cons.mp hr
        have h1 := List.forall_mem_cons.mp h
        simp only [List.zipWith_cons_cons, List.map_cons]
        rw [h1.1 r hr1.1, ih h1.2 hr1.2 (by rw [hk]; exact hr1.2)]
  unfold logScore logLoss
  rw [if_neg h1, if_neg (by simp [hl]), if_pos hr', hneg]
  simp only [Spec.meanLogProb, List.length_map]
  rw [neg_sum_div]

/-- One-hot rows pick one entry. -/
theorem oneHot_sum (v : L) : ∀ (classes : List L) (r : List ℝ), classes.Nodup → v ∈ classes →
    r.length = classes.length →
    (List.zipWith (fun t q => ((t : Nat) : ℝ) * Real.log q)
      (classes.map fun l => if l = v then 1 else 0) r).sum = Real.log (r.getD (classes.idxOf v) 0)
  | [], _, _, h, _ => absurd h (by simp)
  | a :: l, [], _, _, h => by simp at h
  | a :: l, q :: r, hn, hm, hlen => by
    have hn' := List.nodup_cons.mp hn
    simp only [List.map_cons, List.zipWith_cons_cons, List.sum_cons]
    by_cases ha : a = v
    · subst ha
      have : (List.zipWith (fun t q => ((t : Nat) : ℝ) * Real.log q)
          (l.map fun b => if b = a then 1 else 0) r).sum = 0 := by
        have hz : ∀ (l : List L) (r : List ℝ), a ∉ l → (List.zipWith (fun t q => ((t : Nat) : ℝ) * Real.log q)
          (l.map fun b => if b = a then 1 else 0) r).sum = 0 := by
          intro l
          induction l with
          | nil => intro r _; simp
          | cons b l ih =>
            intro r hb
            cases r with
            | nil => simp
            | cons q r =>
              have hb' := List.not_mem_of_not_mem_cons hb
              have hne : b ≠ a := fun e => hb (by simp [e])
              simp [hne, ih r hb']
        exact hz l r hn'.1
      simp [this]
    · have hm' : v ∈ l := by
        rcases List.mem_cons.mp hm with h | h
        · exact absurd h.symm ha
        · exact h
      have := oneHot_sum v l r hn'.2 hm' (by simpa using hlen)
      rw [this, if_neg ha, List.idxOf_cons_ne _ ha]
      simp

theorem binarize_two {num : Nat → L} {a b : L} {c : Nat} {r : List ℝ} (hr : r.length = 2) :
    (List.zipWith (fun t q => ((t : Nat) : ℝ) * Real.log q) (binarize num [a, b] c) r).sum =
      Real.log (r.getD (if num c = b then 1 else 0) 0) := by
  obtain ⟨q0, q1, rfl⟩ := List.length_eq_two.mp hr
  by_cases h : num c = b <;> simp [binarize, h]

theorem binarize_many {num : Nat → L} {classes : List L} {c : Nat} {r : List ℝ} (h3 : 3 ≤ classes.length)
    (hn : classes.Nodup) (hc : num c ∈ classes) (hr : r.length = classes.length) :
    (List.zipWith (fun t q => ((t : Nat) : ℝ) * Real.log q) (binarize num classes c) r).sum =
      Real.log (r.getD (classes.idxOf (num c)) 0) := by
  match classes, h3 with
  | a :: b :: d :: l, _ =>
    unfold binarize
    exact oneHot_sum (num c) _ r hn hc hr

end score

section weights
variable {L : Type} [LinearOrder L]

/-- For keys that are classes the weights are those of the dictionary. -/
theorem dictWeights_ok {classes : List L} (hn : classes.Nodup) : ∀ {d : List (L × ℚ)},
    (d.map (·.1)).Nodup → (∀ e ∈ d, e.1 ∈ classes) →
    dictWeights classes d = .ok (classes.map (Spec.weightOf d))
  | [], _, _ => by
    rw [dictWeights]
    congr 1
  | (c, w) :: d, hd, hm => by
    rw [List.map_cons, List.nodup_cons] at hd
    have hm' := List.forall_mem_cons.mp hm
    rw [dictWeights, dictWeights_ok hn hd.2 hm'.2]
    simp only [if_pos hm'.1]
    congr 1
    apply List.ext_getElem (by simp)
    intro i h1 h2
    simp only [List.length_map] at h2
    rw [List.getElem_set, List.getElem_map]
    by_cases h : classes.idxOf c = i
    · rw [if_pos h]
      subst h
      simp [Spec.weightOf]
    · rw [if_neg h, List.getElem_map]
      have hne : classes[i] ≠ c := by
        intro e
        exact h (by rw [← e]; exact hn.idxOf_getElem i h2)
      simp [Spec.weightOf, List.lookup_cons, beq_false_of_ne hne]

theorem idxOf_range {k c : Nat} (h : c < k) : (List.range k).idxOf c = c := by
  have := (List.nodup_range (n := k)).idxOf_getElem c (by simpa using h)
  simpa using this

/-- What a dictionary does: its keys are compared with the positions of the labels. -/
theorem fitWeights_dict {num : Nat → L} (hnum : Function.Injective num) (multi : Bool) {d : List (L × ℚ)}
    {sw : List ℚ} {y : List L} (hd : (d.map (·.1)).Nodup)
    (hk : ∀ e ∈ d, ∃ c < (uniq y).length, e.1 = num c) (hs : sw.length = y.length) :
    fitWeights num multi (.dict d) sw y =
      .ok (Spec.dictSampleWeights d sw ((encode y).map num)) := by
  have hcl : (((List.range (uniq y).length)).map num).Nodup := List.nodup_range.map hnum
  have hmem : ∀ e ∈ d, e.1 ∈ (List.range (uniq y).length).map num := by
    intro e he
    obtain ⟨c, hc, h⟩ := hk e he
    exact List.mem_map.mpr ⟨c, List.mem_range.mpr hc, h.symm⟩
  unfold fitWeights sampleWeights
  simp only [uniq_encode, length_encode, hs, ne_eq, not_true_eq_false, if_false,
    dictWeights_ok hcl hd hmem]
  congr 1
  unfold Spec.dictSampleWeights
  rw [List.zipWith_map_right]
  have hlt : ∀ c ∈ encode y, c < (uniq y).length := fun c hc => encode_lt hc
  generalize encode y = e at hlt
  clear hs hk hd hmem hcl
  induction sw generalizing e with
  | nil => rfl
  | cons s sw ih =>
    cases e with
    | nil => rfl
    | cons c e =>
      have h := List.forall_mem_cons.mp hlt
      simp only [List.zipWith_cons_cons]
      rw [ih e h.2, idxOf_range h.1]
      simp [List.getD_eq_getElem?_getD, h.1]

theorem total_const {L : Type} [BEq L] [LawfulBEq L] (l : L) (f : L → ℚ) : ∀ y : List L,
    Spec.totalWeight l y (y.map f) = y.count l * f l
  | [] => by simp [Spec.totalWeight]
  | c :: y => by
    have ih := total_const l f y
    unfold Spec.totalWeight at ih ⊢
    rw [List.map_cons, List.zipWith_cons_cons, List.sum_cons, ih, List.count_cons]
    by_cases h : c = l
    · subst h; simp; ring
    · simp [h]

theorem count_encode (y : List L) (l : L) :
    (encode y).count ((uniq y).idxOf l) = y.count l := by
  unfold encode
  have hinj : ∀ a ∈ y, (uniq y).idxOf a = (uniq y).idxOf l ↔ a = l := by
    intro a ha
    exact List.idxOf_inj (mem_uniq.mpr ha)
  unfold List.count
  rw [List.countP_map]
  refine List.countP_congr fun a ha => ?_
  simp [hinj a ha]

theorem zipWith_ones (y : List Nat) (f : Nat → ℚ) :
    List.zipWith (fun s c => s * f c) (List.replicate y.length (1 : ℚ)) y = y.map f := by
  induction y with
  | nil => rfl
  | cons c y ih => simp [List.replicate_succ, ih]

/-- With two classes the count of ones in the encoded labels, and of zeros. -/
theorem count_bin {y : List Nat} (hy : ∀ c ∈ y, c < 2) :
    (y.map fun c => if c = 1 then (1 : Int) else -1).count 1 = y.count 1 ∧
    (y.map fun c => if c = 1 then (1 : Int) else -1).count (-1) = y.count 0 := by
  induction y with
  | nil => simp
  | cons c y ih =>
    have h := List.forall_mem_cons.mp hy
    obtain ⟨i1, i2⟩ := ih h.2
    rw [List.map_cons, List.count_cons, List.count_cons, List.count_cons, List.count_cons, i1, i2]
    have hc := h.1
    have hcz : c = 0 ∨ c = 1 := by omega
    rcases hcz with rfl | rfl <;> simp

/-- The weight that `'balanced'` gives to a sample is that of its label. -/
theorem fitWeights_balanced (num : Nat → L) (multi : Bool) (y : List L)
    (h2 : multi = false → (uniq y).length = 2) :
    fitWeights num multi .balanced (List.replicate y.length 1) y =
      .ok (y.map fun l => (y.length : ℚ) / ((uniq y).length * y.count l)) := by
  have hmap : (encode y).map (fun c => (y.length : ℚ) / ((uniq y).length * (encode y).count c)) =
      y.map fun l => (y.length : ℚ) / ((uniq y).length * y.count l) := by
    conv_lhs => rw [show encode y = y.map (fun l => (uniq y).idxOf l) from rfl, List.map_map]
    refine List.map_congr_left fun l _ => ?_
    have := count_encode y l
    unfold encode at this
    simp only [Function.comp_apply, this]
  unfold fitWeights sampleWeights
  simp only [uniq_encode, List.length_replicate, length_encode, ne_eq, not_true_eq_false, if_false]
  have hrep : List.replicate y.length (1 : ℚ) = List.replicate (encode y).length 1 := by
    rw [length_encode]
  cases multi with
  | true =>
    simp only [if_true]
    rw [hrep, zipWith_ones, ← hmap]
    congr 1
    refine List.map_congr_left fun c hc => ?_
    have hlt := encode_lt hc
    rw [idxOf_range hlt]
    simp [balancedWeights, List.getD_eq_getElem?_getD, hlt, length_encode]
  | false =>
    have hu := h2 rfl
    simp only [Bool.false_eq_true, if_false]
    rw [hrep, zipWith_ones (encode y)
      (fun c => (balancedWeights [-1, 1] _).getD (if c = 1 then 1 else 0) 1), ← hmap]
    congr 1
    refine List.map_congr_left fun c hc => ?_
    have hlt : c < 2 := hu ▸ encode_lt hc
    obtain ⟨h1, h0⟩ := count_bin (y := encode y) fun c hc => hu ▸ encode_lt hc
    have hcz : c = 0 ∨ c = 1 := by omega
    rcases hcz with rfl | rfl
    · simp only [balancedWeights, List.map_cons, List.map_nil]
      simp [h0, hu, length_encode]
    · simp only [balancedWeights, List.map_cons, List.map_nil]
      simp [h1, hu, length_encode]

end weights

section predict
variable {L K : Type} [LinearOrder L] [LinearOrder K] [Zero K]

omit [Zero K] in
theorem argmaxFrom_lt : ∀ (xs : List K) (bi : Nat) (b : K) (i : Nat), bi < i →
    argmaxFrom bi b i xs < i + xs.length
  | [], bi, b, i, h => by simpa [argmaxFrom] using h
  | x :: xs, bi, b, i, h => by
    unfold argmaxFrom
    split
    · have := argmaxFrom_lt xs i x (i + 1) (Nat.lt_succ_self i)
      simp only [List.length_cons]; omega
    · have := argmaxFrom_lt xs bi b (i + 1) (by omega)
      simp only [List.length_cons]; omega

theorem predictIdx_ok {d : List K} (h : d ≠ []) : ∃ i, predictIdx d = .ok i ∧
    i < max 2 d.length := by
  match d with
  | [s] => exact ⟨_, rfl, by split <;> simp⟩
  | a :: b :: l =>
    refine ⟨argmaxFrom 0 a 1 (b :: l), rfl, ?_⟩
    have := argmaxFrom_lt (b :: l) 0 a 1 (by omega)
    simp only [List.length_cons] at *
    omega

omit [LinearOrder L] in
theorem predictLabel_ok {classes : List L} {d : List K} (h : d ≠ []) (h2 : 2 ≤ classes.length)
    (hd : d.length ≤ classes.length) : ∃ i l, predictIdx d = .ok i ∧ classes[i]? = some l ∧
      predictLabel classes d = .ok l := by
  obtain ⟨i, hi, hlt⟩ := predictIdx_ok h
  have hic : i < classes.length := lt_of_lt_of_le hlt (max_le h2 hd)
  exact ⟨i, classes[i], hi, List.getElem?_eq_getElem hic, by
    simp [predictLabel, hi, List.getElem?_eq_getElem hic]⟩

omit [LinearOrder L] in
theorem predictLabel_map {M : Type} (f : L → M) (classes : List L) (d : List K) :
    predictLabel (classes.map f) d = (predictLabel classes d).map f := by
  unfold predictLabel
  cases predictIdx d with
  | error e => rfl
  | ok i =>
    simp only [List.getElem?_map]
    cases classes[i]? <;> rfl

theorem outputDim_le {multinomial : Bool} {y : List L} (h : 2 ≤ (uniq y).length) :
    outputDim multinomial y ≤ (uniq y).length := by
  unfold outputDim
  split
  · exact le_rfl
  · split <;> omega

theorem outputDim_pos (multinomial : Bool) (y : List L) : 1 ≤ outputDim multinomial y := by
  unfold outputDim
  split
  · omega
  · split <;> omega

theorem maskedRows_eq {multinomial : Bool} {k r : Nat} (h : maskedRows multinomial k = .ok r) :
    2 ≤ k ∧ 1 ≤ r ∧ r ≤ k := by
  unfold maskedRows at h
  split at h
  · cases h
  · split at h <;> cases h <;> omega

end predict

end Verif.Labels
