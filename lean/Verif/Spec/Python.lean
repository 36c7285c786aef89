import Verif.Model.Python

/-!
# Specification for C103: the keywords of `to_params`
-/

namespace Libcmaes.Spec

variable {n : ℕ}

/-- The name of a keyword. -/
def kwName : PyKw → String
  | .restarts _ => "restarts"
  | .maxIter _ => "max_iter"
  | .maxFevals _ => "max_fevals"
  | .ftarget _ => "ftarget"
  | .seed _ => "seed"
  | .ftolerance _ => "ftolerance"
  | .xtolerance _ => "xtolerance"
  | .quiet _ => "quiet"
  | .fullFplot _ => "full_fplot"
  | .gradient _ => "gradient"
  | .edm _ => "edm"
  | .mtFeval _ => "mt_feval"
  | .uh _ => "uh"
  | .tpa _ => "tpa"
  | .sep => "sep"
  | .noisy => "noisy"
  | .fixedP => "fixed_p"
  | .other name => name

/-- The keywords with a setter of one value. -/
def settable : List String :=
  ["restarts", "max_iter", "max_fevals", "ftarget", "seed", "ftolerance", "xtolerance", "quiet", "full_fplot", "gradient", "edm",
    "mt_feval", "uh", "tpa"]

/-- The keywords are what the type says: a keyword of `PyKw.other` is none of the others. -/
def KwOk (kw : PyKw) : Prop :=
  ∀ s, kw = .other s → s ∉ settable ∧ s ≠ "sep" ∧ s ≠ "noisy" ∧ s ≠ "fixed_p"

/-- The parameters have the value that the keyword gives.  (A seed given when the clock reads 0 is lost, see C16.) -/
def KwHolds (p : Params n) : PyKw → Prop
  | .restarts k => p.nrestarts = k
  | .maxIter k => p.maxIter = k
  | .maxFevals k => p.maxFevals = k
  | .ftarget v => p.ftarget = v
  | .seed k => p.seed = Params.toU64 k
  | .ftolerance v => p.ftolerance = v
  | .xtolerance v => p.xtol = v
  | .gradient b => p.withGradient = b
  | .edm b => p.withEdm = b
  | .mtFeval b => p.mtFeval = b
  | .uh b => p.uh = b
  | .tpa k => p.tpa = k
  | _ => True

/-- Keywords that leave the kind of search as it is. -/
def KwPlain : PyKw → Prop
  | .restarts _ | .maxIter _ | .maxFevals _ | .ftarget _ | .seed _ | .ftolerance _ | .xtolerance _ | .quiet _ | .fullFplot _
  | .mtFeval _ => True
  | _ => False

end Libcmaes.Spec
