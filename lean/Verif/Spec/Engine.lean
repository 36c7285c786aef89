import Verif.Model.Engine

/-! # Optimisers that do not disturb each other -/

namespace Libcmaes.Spec

variable {n m : ℕ}

/-- The part of a program that concerns the optimiser `A`. -/
def ofA : Act → Bool
  | .newA | .genA => true
  | _ => false

/-- The part of a program that concerns the optimiser `B`. -/
def ofB (a : Act) : Bool := !ofA a

/-- What C64 asks for: whatever the program does with the two optimisers, each of them has returned the
populations it would have returned had the program not used the other one. -/
def IndependentOptimisers (E : Engine) (ja : Job n) (jb : Job m) : Prop :=
  ∀ (l : List Act) (w : Proc E n m), (Proc.start E n m).run ja jb l = .ok w →
    (∃ w', (Proc.start E n m).run ja jb (l.filter ofA) = .ok w' ∧ w'.a.map (·.pops) = w.a.map (·.pops)) ∧
    (∃ w', (Proc.start E n m).run ja jb (l.filter ofB) = .ok w' ∧ w'.b.map (·.pops) = w.b.map (·.pops))

end Libcmaes.Spec
