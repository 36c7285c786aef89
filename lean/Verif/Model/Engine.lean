import Verif.Model.Stop

/-!
# Two optimisers in one process: the shared random engine (include/libcmaes/eigenmvn.h:50-66, 90-104)

`scalar_normal_dist_op::rng` is a static member: all samplers of a process draw from one `std::mt19937`,
and each construction of a sampler seeds it.  Not modelled: uncertainty handling and two-point adaptation,
which draw from the same engine at other points (src/cmastrategy.cc:233, src/esostrategy.cc), and threads.
-/

namespace Libcmaes

/-- The engine together with the way `samples` turns its output into normal numbers.  The functor is copied
into the Eigen expression (`NullaryExpr(..., randN)`, include/libcmaes/eigenmvn.h:143-160), so the second
number cached by `std::normal_distribution` does not survive a call: what a call returns depends on the
state of the engine, the number of rows and the number of columns. -/
structure Engine where
  State : Type
  /-- the state of the engine at the start of the process -/
  init : State
  /-- `rng.seed(s)` -/
  seed : ℕ → State
  /-- one call of `samples`: the columns drawn, of which those below `cols` count -/
  draw : (rows cols : ℕ) → State → (ℕ → Vec rows) × State

/-- An optimiser of the process and the populations its `ask()` has returned so far. -/
structure Client (n : ℕ) where
  s : Strat n
  pops : List (List (Vec n))

/-- Construction of an optimiser (src/cmastrategy.cc:100-112): the engine is seeded.  The constructor of
the solution draws one column with the VD variant (src/cmasolutions.cc:78-83) from a sampler seeded with the same seed,
before. -/
noncomputable def Engine.create {n : ℕ} (E : Engine) (env : Env n) (kind : CovKind) (p : Params n) :
    Out (E.State × Client n) := do
  let s ← Strat.new { env with z := (E.draw n 1 (E.seed p.seed)).1 } kind p
  pure (E.seed p.seed, ⟨s, []⟩)

/-- One generation of an optimiser written as `ask`, evaluation, `tell`, `inc_iter` (src/cmastrategy.cc:
145-307), with the engine in state `st`. -/
noncomputable def Engine.generation {n : ℕ} (E : Engine) (env : Env n) (st : E.State) (c : Client n) :
    Out (E.State × Client n) := do
  let d := E.draw n c.s.p.lambda st
  let env' : Env n := { env with z := fun k => d.1 (k - c.s.nz) }
  let (pop, _) ← c.s.ask env'
  let s' ← c.s.generation env'
  pure (d.2, ⟨s', c.pops ++ [pop]⟩)

/-- What a program does with two optimisers `A` and `B`. -/
inductive Act where
  | newA | newB | genA | genB
  deriving DecidableEq

/-- A process with two optimisers. -/
structure Proc (E : Engine) (n m : ℕ) where
  st : E.State
  a : Option (Client n)
  b : Option (Client m)

/-- The user's description of an optimiser. -/
structure Job (n : ℕ) where
  env : Env n
  kind : CovKind
  p : Params n

/-- One step of the process; a generation before the construction is not a program. -/
noncomputable def Proc.step {E : Engine} {n m : ℕ} (ja : Job n) (jb : Job m) (w : Proc E n m) :
    Act → Out (Proc E n m)
  | .newA => do
    let (st, c) ← E.create ja.env ja.kind ja.p
    pure { w with st := st, a := some c }
  | .newB => do
    let (st, c) ← E.create jb.env jb.kind jb.p
    pure { w with st := st, b := some c }
  | .genA => match w.a with
    | none => .error .ub
    | some c => do
      let (st, c') ← E.generation ja.env w.st c
      pure { w with st := st, a := some c' }
  | .genB => match w.b with
    | none => .error .ub
    | some c => do
      let (st, c') ← E.generation jb.env w.st c
      pure { w with st := st, b := some c' }

/-- A program. -/
noncomputable def Proc.run {E : Engine} {n m : ℕ} (ja : Job n) (jb : Job m) (w : Proc E n m) (l : List Act) :
    Out (Proc E n m) := l.foldlM (Proc.step ja jb) w

/-- The process at its start. -/
def Proc.start (E : Engine) (n m : ℕ) : Proc E n m := ⟨E.init, none, none⟩

end Libcmaes
