import Verif.Model.ErrStats

/-!
# Model of `CMASolutions::print` (src/cmasolutions.cc:256-296)

What is printed is a structure rather than text: the numbers that appear, not their digits.  The elapsed time is left
out.  The profiles, kept in `_pls`, are an argument, as in `Model/ErrStats`.
-/

namespace Libcmaes

open ErrStats

/-- One line of the confidence intervals (src/cmasolutions.cc:275-282); `status` and `ends` are there only when printed. -/
structure PrintedInterval (n : ℕ) where
  dim : ℕ
  lo : ℝ
  hi : ℝ
  errlo : ℝ
  errhi : ℝ
  status : Option (ℤ × ℤ)
  fvalues : FVal × FVal
  ends : Option (Vec n × Vec n)

/-- What `print` writes (src/cmasolutions.cc:264-283); `verbose` holds `covdiag`, `psigma` and `pc`. -/
structure Printed (n : ℕ) where
  fvalue : FVal
  fevals : ℕ
  sigma : ℝ
  iter : ℕ
  x : Vec n
  verbose : Option (List ℝ × Vec n × Vec n)
  intervals : List (PrintedInterval n)

variable {n : ℕ}

/-- `v[i]` with an `int` index: negative or too large is undefined behaviour. -/
def idxZ {α : Type} (l : List α) (i : ℤ) : Out α := if i < 0 then .error .ub else idx l i.toNat

/-- The body of the loop over `_pls` (src/cmasolutions.cc:275-282). -/
def printInterval (verb : Bool) (k : ℕ) (q : Pli n) : Out (PrintedInterval n) := do
  let a ← idxZ q.err q.minindex
  let b ← idxZ q.err q.maxindex
  let va ← idxZ q.fvaluem q.minindex
  let vb ← idxZ q.fvaluem (q.samplesize + 1 + q.maxindex)
  let xs ← (if verb then do
      let xa ← idxZ q.xm q.minindex
      let xb ← idxZ q.xm (q.samplesize + 1 + q.maxindex)
      pure (some (xa, xb))
    else pure none)
  pure ⟨k, q.min, q.max, q.errmin, q.errmax, if a ≠ 0 ∨ b ≠ 0 then some (a, b) else none, (va, vb), xs⟩

/-- `print` (src/cmasolutions.cc:256-290): `none` when nothing is printed.  `_pls` is a `std::map`, hence in increasing
order of the parameters; its keys are parameters (`profile_likelihood` writes no other).  `_cov` is empty for the diagonal
models, and so is its diagonal. -/
noncomputable def Sol.print (s : Sol n) (pls : Pls n) (verb : Bool) (gp : GenoPheno) : Out (Option (Printed n)) :=
  if s.cands = [] then .ok none
  else do
    let x ← phenoV gp s.bestCandidate.x
    let l ← ((List.range n).filterMap fun k => (pls k).map fun q => (k, q)).mapM fun a => printInterval verb a.1 a.2
    pure (some ⟨s.bestCandidate.fvalue, s.nevals, s.sigma, s.niter, x,
      if verb then some (if s.hasCov then List.ofFn fun i => s.cov i i else [], s.psigma, s.pc) else none, l⟩)

/-- `operator<<` (src/cmasolutions.cc:292-296): `print` without verbosity and with a default `GenoPheno`, which changes
nothing. -/
noncomputable def Sol.stream (s : Sol n) (pls : Pls n) : Out (Option (Printed n)) := s.print pls false GenoPheno.plain

end Libcmaes
