import Verif.Spec.Good

/-!
# Settings for which a run is free of errors
-/

namespace Libcmaes.Spec

variable {n : ℕ}

/-- Parameters a user can set up, with rates that keep the covariance positive definite, for the default
and the active update, full or diagonal, without gradient injection.  The active update needs an eigendecomposition in each iteration.  The initial point is
only a reference for elitism if `optimize` evaluates it (see `elitistRef`). -/
structure UsualCore (kind : CovKind) (p : Params n) : Prop where
  configured : Configured p
  strict : StrictRates p
  update : kind ≠ .vd
  vd : p.vd = false
  lazy : kind = .active → p.lazyUpdate = false
  grad : p.withGradient = false
  initialElitist : p.initialElitist = false
  elitist : ¬ (p.elitist = true ∧ p.initialElitistOnRestart = true)

/-- The same, without uncertainty handling and two-point adaptation. -/
structure Usual (kind : CovKind) (p : Params n) : Prop extends UsualCore kind p where
  uh : p.uh = false
  tpa : p.tpa ≠ 2

/-- The settings of `Usual` for the VD variant. -/
structure UsualVd (p : Params n) : Prop where
  configured : Configured p
  vd : p.vd = true
  grad : p.withGradient = false
  initialElitist : p.initialElitist = false
  elitist : ¬ (p.elitist = true ∧ p.initialElitistOnRestart = true)
  uh : p.uh = false
  tpa : p.tpa ≠ 2

/-- The settings of `Usual` for a run of `optimize`, which evaluates the initial point if a form of elitism
needs it: no condition on elitism. -/
structure UsualRun (kind : CovKind) (p : Params n) : Prop where
  configured : Configured p
  strict : StrictRates p
  update : kind ≠ .vd
  vd : p.vd = false
  lazy : kind = .active → p.lazyUpdate = false
  grad : p.withGradient = false
  uh : p.uh = false
  tpa : p.tpa ≠ 2

theorem Usual.run {kind : CovKind} {p : Params n} (h : Usual kind p) : UsualRun kind p :=
  ⟨h.configured, h.strict, h.update, h.vd, h.lazy, h.grad, h.uh, h.tpa⟩

/-- The same of the parameters as they are, however they came about (after a restart they are not those the
user set up). -/
structure GoodRun (kind : CovKind) (p : Params n) : Prop where
  good : GoodParams p
  strict : StrictRates p
  update : kind ≠ .vd
  vd : p.vd = false
  lazy : kind = .active → p.lazyUpdate = false
  grad : p.withGradient = false
  uh : p.uh = false
  tpa : p.tpa ≠ 2

end Libcmaes.Spec
