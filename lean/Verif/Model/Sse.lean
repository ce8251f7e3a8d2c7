import Mathlib.Algebra.Field.Basic
import Verif.Model.Lbfgs
/-!
Model of `/repo/liblbfgs/arithmetic_sse_double.h`, the vector routines of a build with `USE_SSE` (`lbfgs.c:79-81`).
Memory blocks are functions of the index; a routine may read and write at any index.  The arithmetic is that of a
field; different arguments are different blocks.
-/
namespace Verif.Sse

variable {K : Type}

/-- `for (i = 0; i < n; i += s) body`, from `i` on (`arithmetic_sse_double.h:75`).  Every loop of the file has a
    positive step; the test of `s` is there for termination. -/
def forBy {α : Type} (n s : Nat) (body : Nat → α → α) (i : Nat) (a : α) : α :=
  if _h : i < n ∧ 0 < s then forBy n s body (i + s) (body i a) else a
termination_by n - i

/-- `_mm_load_pd(x + i)` (`arithmetic_sse_double.h:87`). -/
def load (x : Nat → K) (i : Nat) : K × K := (x i, x (i + 1))

/-- `_mm_store_pd(x + i, v)` (`arithmetic_sse_double.h:76`). -/
def store (x : Nat → K) (i : Nat) (v : K × K) : Nat → K :=
  fun k => if k = i then v.1 else if k = i + 1 then v.2 else x k

/-- `_mm_set1_pd(c)` (`arithmetic_sse_double.h:74`). -/
def set1 (c : K) : K × K := (c, c)

section
variable [Field K]

/-- `_mm_mul_pd` (`arithmetic_sse_double.h:131`). -/
def mulPd (a b : K × K) : K × K := (a.1 * b.1, a.2 * b.2)
/-- `_mm_add_pd` (`arithmetic_sse_double.h:133`). -/
def addPd (a b : K × K) : K × K := (a.1 + b.1, a.2 + b.2)
/-- `_mm_sub_pd` (`arithmetic_sse_double.h:111`). -/
def subPd (a b : K × K) : K × K := (a.1 - b.1, a.2 - b.2)

/-- `vecset` (`arithmetic_sse_double.h:71-81`). -/
def vecset (x : Nat → K) (c : K) (n : Nat) : Nat → K :=
  forBy n 8 (fun i x =>
    store (store (store (store x i (set1 c)) (i + 2) (set1 c)) (i + 4) (set1 c)) (i + 6) (set1 c)) 0 x

/-- `veccpy` (`arithmetic_sse_double.h:83-96`). -/
def veccpy (y x : Nat → K) (n : Nat) : Nat → K :=
  forBy n 8 (fun i y =>
    store (store (store (store y i (load x i)) (i + 2) (load x (i + 2))) (i + 4) (load x (i + 4)))
      (i + 6) (load x (i + 6))) 0 y

/-- `vecncpy` (`arithmetic_sse_double.h:98-119`). -/
def vecncpy (y x : Nat → K) (n : Nat) : Nat → K :=
  forBy n 8 (fun i y =>
    store (store (store (store y i (subPd (set1 0) (load x i))) (i + 2) (subPd (set1 0) (load x (i + 2))))
      (i + 4) (subPd (set1 0) (load x (i + 4)))) (i + 6) (subPd (set1 0) (load x (i + 6)))) 0 y

/-- `vecadd` (`arithmetic_sse_double.h:121-137`). -/
def vecadd (y x : Nat → K) (c : K) (n : Nat) : Nat → K :=
  forBy n 4 (fun i y =>
    store (store y i (addPd (load y i) (mulPd (load x i) (set1 c)))) (i + 2)
      (addPd (load y (i + 2)) (mulPd (load x (i + 2)) (set1 c)))) 0 y

/-- `vecdiff` (`arithmetic_sse_double.h:139-160`). -/
def vecdiff (z x y : Nat → K) (n : Nat) : Nat → K :=
  forBy n 8 (fun i z =>
    store (store (store (store z i (subPd (load x i) (load y i))) (i + 2) (subPd (load x (i + 2)) (load y (i + 2))))
      (i + 4) (subPd (load x (i + 4)) (load y (i + 4)))) (i + 6) (subPd (load x (i + 6)) (load y (i + 6)))) 0 z

/-- `vecscale` (`arithmetic_sse_double.h:162-174`). -/
def vecscale (y : Nat → K) (c : K) (n : Nat) : Nat → K :=
  forBy n 4 (fun i y =>
    store (store y i (mulPd (load y i) (set1 c))) (i + 2) (mulPd (load y (i + 2)) (set1 c))) 0 y

/-- `vecmul` (`arithmetic_sse_double.h:176-198`). -/
def vecmul (y x : Nat → K) (n : Nat) : Nat → K :=
  forBy n 8 (fun i y =>
    store (store (store (store y i (mulPd (load y i) (load x i))) (i + 2) (mulPd (load y (i + 2)) (load x (i + 2))))
      (i + 4) (mulPd (load y (i + 4)) (load x (i + 4)))) (i + 6) (mulPd (load y (i + 6)) (load x (i + 6)))) 0 y

/-- `vecdot` (`arithmetic_sse_double.h:226-247`): two registers of two partial sums, added up at the end. -/
def vecdot (x y : Nat → K) (n : Nat) : K :=
  let r := forBy n 4 (fun i (r : (K × K) × (K × K)) =>
    (addPd r.1 (mulPd (load x i) (load y i)), addPd r.2 (mulPd (load x (i + 2)) (load y (i + 2))))) 0
    (set1 0, set1 0)
  let a := addPd r.1 r.2
  (addPd a (a.2, a.2)).1

/-- `vec2norm` (`arithmetic_sse_double.h:249-271`). -/
def vec2norm (sqrt : K → K) (x : Nat → K) (n : Nat) : K := sqrt (vecdot x x n)

/-- `vec2norminv` (`arithmetic_sse_double.h:274-298`). -/
def vec2norminv (sqrt : K → K) (x : Nat → K) (n : Nat) : K := 1 / sqrt (vecdot x x n)
end

/-- `round_out_variables` (`lbfgs.c:218-224`); C division rounds towards zero. -/
def roundOut (n : Int) : Int := ((n + 7).tdiv 8) * 8

/-- A `double` that is a number: zero has a sign (`arithmetic_sse_double.h:68-69`). -/
structure Dbl (K : Type) where
  val : K
  negZero : Bool

/-- The sign bit, as `_mm_movemask_pd` collects it (`arithmetic_sse_double.h:69`). -/
def Dbl.bit [Zero K] [LT K] [DecidableLT K] [DecidableEq K] (x : Dbl K) : Nat :=
  if x.val < 0 ∨ (x.val = 0 ∧ x.negZero = true) then 1 else 0

/-- `fsigndiff` (`arithmetic_sse_double.h:68-69`): `_mm_set_pd(*x, *y)` puts `x` in the upper half. -/
def fsigndiff [Zero K] [LT K] [DecidableLT K] [DecidableEq K] (x y : Dbl K) : Bool :=
  ((2 * x.bit + y.bit + 1) &&& 2) ≠ 0

/-- Validation of the parameters with `USE_SSE` (`lbfgs.c:280-364`): `n` has been rounded out before; the check that
    it is a multiple of eight then passes, and so does that of the address, which comes from `lbfgs_malloc`. -/
def checkSse {F : Type} [Zero F] [One F] [LT F] [LE F] [DecidableLT F] [DecidableLE F] (n : Nat) (p : Lbfgs.Par F) :
    Option Int :=
  Lbfgs.check (roundOut n).toNat p

end Verif.Sse
