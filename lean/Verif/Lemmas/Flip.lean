import Verif.Model.Restart
import Verif.Lemmas.Out
import Verif.Lemmas.Sim

/-!
# Maximising and minimising the negated objective: every function commutes with the exchange
-/

namespace Libcmaes

open Finset Matrix

variable {n : ℕ}

theorem Out.map_ok {α β : Type} (f : α → β) (a : α) : Except.map f (.ok a : Out α) = .ok (f a) := rfl

theorem Out.map_error {α β : Type} (f : α → β) (e : Err) :
    Except.map f (.error e : Out α) = .error e := rfl

theorem Out.map_bind {α β γ : Type} (f : β → γ) (x : Out α) (g : α → Out β) :
    Except.map f (x >>= g) = x >>= fun a => Except.map f (g a) := by
  cases x <;> rfl

theorem Out.bind_map {α β γ : Type} (f : α → β) (x : Out α) (g : β → Out γ) :
    (Except.map f x >>= g) = x >>= fun a => g (f a) := by
  cases x <;> rfl

theorem Out.bind_congr {α β : Type} (x : Out α) {g h : α → Out β} (e : ∀ a, g a = h a) :
    (x >>= g) = (x >>= h) := by
  cases x with
  | error => rfl
  | ok a => exact e a

theorem Out.map_ite {α β : Type} (f : α → β) (c : Prop) [Decidable c] (x y : Out α) :
    Except.map f (if c then x else y) = if c then Except.map f x else Except.map f y := by
  split_ifs <;> rfl

/-- Compare two nests of conditionals branch by branch. -/
syntax "branches" : tactic
macro_rules
  | `(tactic| branches) =>
    `(tactic| repeat' first
      | (refine (if_congr ?_ ?_ ?_ : (ite _ _ _ : Out _) = _).trans (Out.map_ite _ _ _ _).symm; (· rfl))
      | rfl)

/-- Folding commutes with a map of the accumulator if each step does. -/
theorem Out.foldlM_map {α β γ : Type} (φ : β → γ) (f : β → α → Out β) (g : γ → α → Out γ)
    (h : ∀ b a, g (φ b) a = Except.map φ (f b a)) (l : List α) (b : β) :
    l.foldlM g (φ b) = Except.map φ (l.foldlM f b) := by
  induction l generalizing b with
  | nil => rfl
  | cons a l ih =>
    rw [List.foldlM_cons, List.foldlM_cons, h, Out.map_bind, Out.bind_map]
    exact Out.bind_congr _ fun b' => ih b'

/-- The parameters with the maximisation flag exchanged. -/
def Params.flip (p : Params n) : Params n := { p with maximize := !p.maximize }

/-- The strategy with the maximisation flag exchanged. -/
noncomputable def Strat.flip (s : Strat n) : Strat n :=
  { s with
    p := s.p.flip, negate := !s.negate
    calls := s.calls.map fun q => (q.1, q.2.neg) }

/-- The environment with the objective negated. -/
noncomputable def Env.flip (env : Env n) : Env n :=
  { env with
    f := fun k x => (env.f k x).neg
    pfunc := fun k p s => env.pfunc k p.flip s }

theorem Params.flip_flip (p : Params n) : p.flip.flip = p := by
  cases p; simp [Params.flip]

theorem Strat.flip_flip (s : Strat n) : s.flip.flip = s := by
  have : (s.calls.map fun q => (q.1, q.2.neg)).map (fun q => (q.1, q.2.neg)) = s.calls := by
    rw [List.map_map]
    refine (List.map_congr_left fun q _ => ?_).trans (List.map_id _)
    exact Prod.ext rfl (FVal.neg_neg' _)
  cases s
  simp only [Strat.flip, Params.flip_flip, Bool.not_not] at this ⊢
  rw [this]

namespace Strat

/-- Exchange inside a pair. -/
noncomputable def flipR {α : Type} (q : α × Strat n) : α × Strat n := (q.1, q.2.flip)

theorem callF_flip (env : Env n) (s : Strat n) (x : Vec n) :
    s.flip.callF env.flip x = flipR (s.callF env x) := by
  unfold callF flipR
  simp only [flip, Env.flip, List.length_map, List.map_append, List.map_cons, List.map_nil]
  cases s.negate <;> simp [FVal.neg_neg']

theorem updateFevals_flip (s : Strat n) (k : ℕ) : s.flip.updateFevals k = (s.updateFevals k).flip := rfl

theorem incIter_flip (s : Strat n) : s.flip.incIter = s.incIter.flip := rfl

theorem order_flip (env : Env n) (s : Strat n) (m : ℕ) : s.flip.order env.flip m = s.order env m := by
  unfold order
  simp only [flip, Env.flip, List.length_map]
  rfl

theorem gradStep_flip (env : Env n) (x : Vec n) (fx : ℝ) (s : Strat n × Vec n) (i : ℕ) :
    gradStep env.flip x fx (s.1.flip, s.2) i =
      Except.map (fun q => (q.1.flip, q.2)) (gradStep env x fx s i) := by
  unfold gradStep
  split_ifs with h
  · rw [Out.map_bind]
    refine Out.bind_congr _ fun ub => ?_
    simp only [callF_flip, flipR]
    rw [Out.map_bind]
    exact Out.bind_congr _ fun fv => rfl
  · rfl

theorem gradf_flip (env : Env n) (s : Strat n) (x : Vec n) :
    s.flip.gradf env.flip x = Except.map (fun q => (q.1.flip, q.2)) (s.gradf env x) := by
  unfold gradf
  show (match env.gfunc with
    | some g => _
    | none => _) = _
  cases env.gfunc with
  | some g => simp [flip, Out.map_ok]
  | none =>
    simp only [callF_flip, flipR, order_flip]
    rw [Out.map_bind]
    refine Out.bind_congr _ fun fx => ?_
    rw [Out.map_bind, Out.foldlM_map (fun q : Strat n × Vec n => (q.1.flip, q.2)) (gradStep env x fx)
      (gradStep env.flip x fx) (fun b a => gradStep_flip env x fx b a) _ ((s.callF env x).2, fun _ => 0),
      Out.bind_map]
    exact Out.bind_congr _ fun q => rfl

theorem gradgp_flip (s : Strat n) (x : Vec n) : s.flip.gradgp x = s.gradgp x := rfl

theorem askPrepare_flip (env : Env n) (s : Strat n) :
    s.flip.askPrepare env.flip = Except.map flip (s.askPrepare env) := by
  unfold askPrepare
  branches

theorem askSample_flip (env : Env n) (s : Strat n) :
    s.flip.askSample env.flip = Except.map flipR (s.askSample env) := by
  unfold askSample
  branches

theorem askGradient_flip (env : Env n) (s : Strat n) (pop : List (Vec n)) :
    s.flip.askGradient env.flip pop = Except.map flipR (s.askGradient env pop) := by
  unfold askGradient
  rw [Out.map_ite]
  refine if_congr (by rfl) rfl ?_
  rw [Out.map_bind]
  refine Out.bind_congr _ fun ph => ?_
  rw [gradf_flip, Out.map_bind, Out.bind_map]
  refine Out.bind_congr _ fun q => ?_
  simp only
  rw [gradgp_flip, Out.map_bind]
  refine Out.bind_congr _ fun gg => ?_
  cases hq : s.es.eig <;> simp only [show s.flip.es = s.es from rfl, hq] <;> branches

theorem askTpa_flip (env : Env n) (s : Strat n) (pop : List (Vec n)) :
    s.flip.askTpa env.flip pop = Except.map flipR (s.askTpa env pop) := by
  unfold askTpa
  rw [Out.map_ite]
  refine if_congr (by rfl) ?_ rfl
  rw [Out.map_ite]
  refine if_congr (by rfl) rfl ?_
  rw [Out.map_bind]
  refine Out.bind_congr _ fun nrm => ?_
  branches

theorem ask_flip (env : Env n) (s : Strat n) :
    s.flip.ask env.flip = Except.map flipR (s.ask env) := by
  unfold ask
  rw [askPrepare_flip, Out.map_bind, Out.bind_map]
  refine Out.bind_congr _ fun s1 => ?_
  rw [askSample_flip, Out.map_bind, Out.bind_map]
  refine Out.bind_congr _ fun q2 => ?_
  simp only [flipR]
  rw [askGradient_flip, Out.map_bind, Out.bind_map]
  refine Out.bind_congr _ fun q3 => ?_
  simp only [flipR]
  rw [askTpa_flip, Out.map_bind, Out.bind_map]
  refine Out.bind_congr _ fun q4 => ?_
  simp only [flipR]
  rw [Out.map_bind]
  exact Out.bind_congr _ fun pop => rfl

theorem evalOne_flip (env : Env n) (cols phen : List (Vec n)) (s : Strat n) (r : ℕ) :
    evalOne env.flip cols phen s.flip r = Except.map flip (evalOne env cols phen s r) := by
  unfold evalOne
  rw [Out.map_bind]
  refine Out.bind_congr _ fun x => ?_
  rw [Out.map_bind]
  refine Out.bind_congr _ fun _ => ?_
  rw [Out.map_bind]
  refine Out.bind_congr _ fun y => ?_
  simp only [callF_flip, flipR]
  rfl

theorem reevalOne_flip (env : Env n) (lreev : ℕ) (uhcols : List (Vec n))
    (s : Strat n × List RankedCand × ℕ) (r : ℕ) :
    reevalOne env.flip lreev uhcols (s.1.flip, s.2) r =
      Except.map (fun q => (q.1.flip, q.2)) (reevalOne env lreev uhcols s r) := by
  unfold reevalOne
  rw [Out.map_bind]
  refine Out.bind_congr _ fun c => ?_
  rw [Out.map_ite]
  refine if_congr Iff.rfl ?_ rfl
  rw [Out.map_bind]
  refine Out.bind_congr _ fun x => ?_
  simp only [callF_flip, flipR]
  rfl

theorem performUh_flip (env : Env n) (s : Strat n) (cols phen : List (Vec n)) (nf : ℕ) :
    s.flip.performUh env.flip cols phen nf =
      Except.map (fun q => (q.1.flip, q.2)) (s.performUh env cols phen nf) := by
  unfold performUh
  rw [Out.map_ite]
  refine if_congr (by rfl) rfl ?_
  rw [Out.map_bind]
  set lreev := lambdaReevOf s.p (env.u s.nu) with hl
  set uhcols := ((if phen.isEmpty then cols else phen).take lreev).zipIdx.map fun q =>
    q.1 + (1e-7 * s.sol.sigma) • env.zuh (s.nzuh + q.2) with hu
  set s1 : Strat n := { s with nu := s.nu + 1, nzuh := s.nzuh + lreev, sol := { s.sol with lambdaReev := lreev } }
    with hs1
  have := Out.foldlM_map (fun q : Strat n × List RankedCand × ℕ => (q.1.flip, q.2))
    (reevalOne env lreev uhcols) (reevalOne env.flip lreev uhcols)
    (fun b a => reevalOne_flip env lreev uhcols b a) (List.range cols.length) (s1, [], nf)
  refine (congrArg (fun x : Out (Strat n × List RankedCand × ℕ) => x >>= fun q : Strat n × List RankedCand × ℕ =>
    (pure ({ q.1 with sol := { q.1.sol with candsUh := q.2.1 } }, q.2.2) : Out _)) this).trans ?_
  rw [Out.bind_map]
  exact Out.bind_congr _ fun q => rfl

theorem reinject_flip (s : Strat n) (k : ℕ) : s.flip.reinject k = Except.map flip (s.reinject k) := by
  unfold reinject
  rw [Out.map_ite]
  refine if_congr (by rfl) ?_ rfl
  rw [Out.map_ite]
  refine if_congr (by rfl) rfl ?_
  rw [Out.map_ite]
  refine if_congr (by rfl) ?_ rfl
  show (match s.elitistRef with
    | none => _
    | some c => _) = _
  cases s.elitistRef with
  | none => rfl
  | some c =>
    branches

theorem eval_flip (env : Env n) (s : Strat n) (cols phen : List (Vec n)) :
    s.flip.eval env.flip cols phen = Except.map flip (s.eval env cols phen) := by
  unfold eval
  rw [order_flip, Out.map_bind, Out.foldlM_map flip (evalOne env cols phen) (evalOne env.flip cols phen)
    (fun b a => evalOne_flip env cols phen b a), Out.bind_map]
  refine Out.bind_congr _ fun s1 => ?_
  rw [Out.map_bind]
  have : (if s1.flip.p.uh then s1.flip.performUh env.flip cols phen cols.length
      else pure (s1.flip, cols.length)) = Except.map (fun q : Strat n × ℕ => (q.1.flip, q.2))
      (if s1.p.uh then s1.performUh env cols phen cols.length else pure (s1, cols.length)) := by
    rw [Out.map_ite, performUh_flip]; rfl
  refine (congrArg (· >>= _) this).trans ?_
  rw [Out.bind_map]
  refine Out.bind_congr _ fun q => ?_
  simp only
  rw [reinject_flip, Out.map_bind, Out.bind_map]
  exact Out.bind_congr _ fun s3 => rfl

theorem uncertaintyHandling_flip (env : Env n) (s : Strat n) :
    s.flip.uncertaintyHandling env.flip = Except.map flip (s.uncertaintyHandling env) := by
  unfold uncertaintyHandling
  rw [Out.map_bind]
  refine Out.bind_congr _ fun l1 => ?_
  rw [Out.map_bind]
  refine Out.bind_congr _ fun l2 => ?_
  rw [Out.map_ite]
  refine if_congr (by rfl) rfl ?_
  rw [Out.map_bind]
  refine Out.bind_congr _ fun ts => ?_
  rw [Out.map_bind]
  refine Out.bind_congr _ fun l4 => ?_
  rw [Out.map_bind]
  exact Out.bind_congr _ fun cs => rfl

theorem rank_flip (env : Env n) (s : Strat n) : s.flip.rank env.flip = Except.map flip (s.rank env) := by
  unfold rank
  rw [Out.map_ite, uncertaintyHandling_flip, Out.map_bind]
  rfl

theorem tpaUpdate_flip (s : Strat n) : s.flip.tpaUpdate = Except.map flip s.tpaUpdate := by
  unfold tpaUpdate
  branches

theorem tellFinish_flip (s : Strat n) : s.flip.tellFinish = Except.map flip s.tellFinish := by
  unfold tellFinish
  cases hq : s.es.eig <;> simp only [show s.flip.es = s.es from rfl, hq] <;> branches

theorem covarianceUpdate_flip (eig : EigSolver n) (kind : CovKind) (p : Params n) (es : Es n) (s : Sol n) :
    covarianceUpdate eig kind p.flip es s = covarianceUpdate eig kind p es s := by
  cases kind <;> rfl

theorem tell_flip (env : Env n) (s : Strat n) : s.flip.tell env.flip = Except.map flip (s.tell env) := by
  unfold tell
  rw [rank_flip, Out.map_bind, Out.bind_map]
  refine Out.bind_congr _ fun s1 => ?_
  rw [Out.map_bind]
  have : (if s1.flip.p.tpa = 2 ∧ s1.flip.niter > 0 then s1.flip.tpaUpdate else pure s1.flip) =
      Except.map flip (if s1.p.tpa = 2 ∧ s1.niter > 0 then s1.tpaUpdate else pure s1) := by
    rw [Out.map_ite, tpaUpdate_flip]; rfl
  refine (congrArg (· >>= _) this).trans ?_
  rw [Out.bind_map]
  refine Out.bind_congr _ fun s2 => ?_
  rw [Out.map_bind]
  refine Out.bind_congr _ fun sol3 => ?_
  rw [Out.map_bind]
  show (covarianceUpdate env.eig s2.kind s2.p.flip s2.es sol3 >>= _) = _
  rw [covarianceUpdate_flip]
  exact Out.bind_congr _ fun sol4 => tellFinish_flip { s2 with sol := sol4 }

theorem generation_flip (env : Env n) (s : Strat n) :
    s.flip.generation env.flip = Except.map flip (s.generation env) := by
  unfold generation
  rw [ask_flip, Out.map_bind, Out.bind_map]
  refine Out.bind_congr _ fun q => ?_
  simp only [flipR]
  rw [Out.map_bind]
  refine Out.bind_congr _ fun phen => ?_
  rw [eval_flip, Out.map_bind, Out.bind_map]
  refine Out.bind_congr _ fun s2 => ?_
  rw [tell_flip, Out.map_bind, Out.bind_map]
  exact Out.bind_congr _ fun s3 => rfl

theorem generations_flip (env : Env n) (s : Strat n) (k : ℕ) :
    s.flip.generations env.flip k = Except.map flip (s.generations env k) := by
  induction k generalizing s with
  | zero => rfl
  | succ k ih =>
    show (s.flip.generation env.flip >>= fun s1 => s1.generations env.flip k) =
      Except.map flip (s.generation env >>= fun s1 => s1.generations env k)
    rw [generation_flip, Out.map_bind, Out.bind_map]
    exact Out.bind_congr _ fun s1 => ih s1

theorem evalInitial_flip (env : Env n) (s : Strat n) :
    s.flip.evalInitial env.flip = Except.map flip (s.evalInitial env) := by
  unfold evalInitial
  rw [Out.map_ite]
  refine if_congr (by rfl) ?_ rfl
  rw [Out.map_bind]
  refine Out.bind_congr _ fun y => ?_
  simp only [callF_flip, flipR]
  rfl

theorem critFun_flip (fladd : ℝ → ℝ → ℝ) (c : ℤ) (p : Params n) (s : Sol n) :
    critFun fladd c p.flip s = critFun fladd c p s := by
  rfl

theorem stopCrit_flip (fladd : ℝ → ℝ → ℝ) (l : List (ℤ × Bool)) (p : Params n) (s : Sol n) :
    stopCrit fladd l p.flip s = stopCrit fladd l p s := by
  induction l with
  | nil => rfl
  | cons q l ih =>
    obtain ⟨c, a⟩ := q
    simp only [stopCrit, critFun_flip, ih]

theorem stop_flip (env : Env n) (s : Strat n) :
    s.flip.stop env.flip = Except.map flipR (s.stop env) := by
  unfold stop
  rw [Out.map_ite]
  refine if_congr (by rfl) rfl ?_
  simp only
  have e : env.flip.pfunc s.flip.npf s.flip.p s.flip.sol = env.pfunc s.npf s.p s.sol := by
    show env.pfunc s.npf s.p.flip.flip s.sol = _
    rw [Params.flip_flip]
  rw [e, Out.map_ite, Out.map_ite]
  refine if_congr Iff.rfl rfl (if_congr (by rfl) rfl ?_)
  rw [Out.map_bind]
  show (stopCrit env.fladd s.crit s.p.flip s.sol >>= _) = _
  rw [stopCrit_flip]
  exact Out.bind_congr _ fun c => rfl

theorem loop_flip (env : Env n) (k : ℕ) (s : Strat n) :
    loop env.flip k s.flip = Except.map (Option.map flip) (loop env k s) := by
  induction k generalizing s with
  | zero => rfl
  | succ k ih =>
    unfold loop
    rw [stop_flip, Out.map_bind, Out.bind_map]
    refine Out.bind_congr _ fun q => ?_
    simp only [flipR]
    rw [Out.map_ite]
    refine if_congr Iff.rfl rfl ?_
    rw [generation_flip, Out.map_bind, Out.bind_map]
    exact Out.bind_congr _ fun s1 => ih s1

theorem edm_flip (env : Env n) (s : Strat n) : s.flip.edm env.flip = Except.map flip (s.edm env) := by
  unfold edm
  rw [Out.map_ite]
  refine if_congr (by rfl) rfl ?_
  rw [Out.map_bind]
  refine Out.bind_congr _ fun ph => ?_
  rw [gradf_flip, Out.map_bind, Out.bind_map]
  refine Out.bind_congr _ fun q => ?_
  simp only
  rw [gradgp_flip, Out.map_bind]
  refine Out.bind_congr _ fun gg => ?_
  rw [Out.map_bind]
  exact Out.bind_congr _ fun nrm => rfl

theorem wantsRestart_flip (s : Strat n) : s.flip.wantsRestart = s.wantsRestart := rfl

/-- The constructor of the solutions does not look at the flag. -/
theorem _root_.Libcmaes.Sol.make_flip (p : Params n) (r z : Vec n) :
    Sol.make p.flip r z = Except.map (fun q => (q.1.flip, q.2)) (Sol.make p r z) := by
  unfold Sol.make
  rw [Out.map_bind]
  refine Out.bind_congr _ fun m => ?_
  branches

theorem elitistRestart_flip (env : Env n) (s : Strat n) :
    s.flip.elitistRestart env.flip = Except.map flip (s.elitistRestart env) := by
  unfold elitistRestart
  show (match s.sol.bestSeen with
    | none => _
    | some b => _) = _
  cases s.sol.bestSeen with
  | none => rfl
  | some b =>
    simp only
    rw [Out.map_bind]
    refine (congrArg (· >>= _) (Sol.make_flip { s.p with x0min := b.x, x0max := b.x } (env.rnd s.nrnd)
      (env.z 0))).trans ?_
    rw [Out.bind_map]
    exact Out.bind_congr _ fun q => rfl

theorem optimize_flip (env : Env n) (k : ℕ) (s : Strat n) :
    optimize env.flip k s.flip = Except.map (Option.map flip) (optimize env k s) := by
  induction k generalizing s with
  | zero => rfl
  | succ k ih =>
    unfold optimize
    rw [evalInitial_flip, Out.map_bind, Out.bind_map]
    refine Out.bind_congr _ fun s0 => ?_
    rw [loop_flip, Out.map_bind, Out.bind_map]
    refine Out.bind_congr _ fun o => ?_
    cases o with
    | none => rfl
    | some s1 =>
      simp only [Option.map_some]
      rw [Out.map_bind]
      have : (if s1.flip.p.withEdm then s1.flip.edm env.flip else pure s1.flip) =
          Except.map flip (if s1.p.withEdm then s1.edm env else pure s1) := by
        rw [Out.map_ite, edm_flip]; rfl
      refine (congrArg (· >>= _) this).trans ?_
      rw [Out.bind_map]
      refine Out.bind_congr _ fun s2 => ?_
      rw [wantsRestart_flip, Out.map_bind]
      refine Out.bind_congr _ fun again => ?_
      rw [Out.map_ite]
      refine if_congr Iff.rfl ?_ rfl
      rw [elitistRestart_flip, Out.map_bind, Out.bind_map]
      exact Out.bind_congr _ fun s3 => ih s3

theorem new_flip (env : Env n) (kind : CovKind) (p : Params n) :
    Strat.new env.flip kind p.flip = Except.map flip (Strat.new env kind p) := by
  unfold Strat.new
  rw [Out.map_bind]
  refine (congrArg (· >>= _) (Sol.make_flip p (env.rnd 0) (env.z 0))).trans ?_
  rw [Out.bind_map]
  exact Out.bind_congr _ fun q => rfl

theorem _root_.Libcmaes.initializeParameters_flip (p : Params n) :
    initializeParameters p.flip = Except.map Params.flip (initializeParameters p) := by
  unfold initializeParameters
  branches

theorem lambdaInc_flip (s : Strat n) : s.flip.lambdaInc = Except.map flip s.lambdaInc := by
  unfold lambdaInc
  rw [Out.map_bind]
  refine (congrArg (· >>= _) (initializeParameters_flip { s.p with lambda := s.p.lambda * 2 })).trans ?_
  rw [Out.bind_map]
  exact Out.bind_congr _ fun q => rfl

theorem resetSearchState_flip (env : Env n) (s : Strat n) :
    s.flip.resetSearchState env.flip = Except.map flip (s.resetSearchState env) := by
  unfold resetSearchState
  rw [Out.map_bind]
  refine (congrArg (· >>= _) (Sol.make_flip s.p (env.rnd s.nrnd) (env.z 0))).trans ?_
  rw [Out.bind_map]
  exact Out.bind_congr _ fun q => rfl

theorem captureBest_flip (s : Strat n) (b : Option (Sol n)) : s.flip.captureBest b = s.captureBest b := rfl

theorem ipopLoop_flip (env : Env n) (fuel r : ℕ) (s : Strat n) (b : Option (Sol n)) :
    ipopLoop env.flip fuel r s.flip b =
      Except.map (Option.map fun q => (q.1.flip, q.2)) (ipopLoop env fuel r s b) := by
  induction r generalizing s b with
  | zero => rfl
  | succ r ih =>
    unfold ipopLoop
    rw [optimize_flip, Out.map_bind, Out.bind_map]
    refine Out.bind_congr _ fun o => ?_
    cases o with
    | none => rfl
    | some s1 =>
      simp only [Option.map_some]
      rw [lambdaInc_flip, Out.map_bind, Out.bind_map]
      refine Out.bind_congr _ fun s2 => ?_
      rw [resetSearchState_flip, Out.map_bind, Out.bind_map]
      refine Out.bind_congr _ fun s3 => ?_
      rw [Out.map_ite]
      exact if_congr (by rfl) rfl (ih s3 _)

theorem ipopOptimize_flip (env : Env n) (fuel : ℕ) (s : Strat n) :
    ipopOptimize env.flip fuel s.flip =
      Except.map (Option.map fun q => (q.1.flip, q.2)) (ipopOptimize env fuel s) :=
  ipopLoop_flip env fuel s.p.nrestarts s none

end Strat

namespace Bipop

/-- The BIPOP strategy with the maximisation flag exchanged. -/
noncomputable def flip (b : Bipop n) : Bipop n := { b with s := b.s.flip }

/-- The state of its loops. -/
noncomputable def Loop.flip (l : Loop n) : Loop n := { l with b := l.b.flip }

theorem new_flip (env : Env n) (kind : CovKind) (p : Params n) :
    Bipop.new env.flip kind p.flip = Except.map flip (Bipop.new env kind p) := by
  unfold Bipop.new
  rw [Strat.new_flip, Out.map_bind, Out.bind_map]
  refine Out.bind_congr _ fun s => ?_
  rw [Out.map_bind]
  refine (congrArg (· >>= _) (Sol.make_flip { s.p with lambda := p.lambda, mu := p.lambda / 2 }
    (env.rnd s.nrnd) (env.z 0))).trans ?_
  rw [Out.bind_map]
  exact Out.bind_congr _ fun q => rfl

theorem r1_flip (b : Bipop n) : b.flip.r1 = Except.map flip b.r1 := by
  unfold r1
  rw [Out.map_bind]
  refine (congrArg (· >>= _) (Strat.lambdaInc_flip { b.s with p := { b.s.p with lambda := b.lambdaL } })).trans ?_
  rw [Out.bind_map]
  refine Out.bind_congr _ fun s => ?_
  obtain ⟨_, _, _, sg, _, _⟩ := b
  cases sg <;> rfl

theorem r2_flip (env : Env n) (b : Bipop n) : b.flip.r2 env.flip = Except.map flip (b.r2 env) := by
  unfold r2
  rw [Out.map_bind]
  refine (congrArg (· >>= _) (initializeParameters_flip { b.s.p with
    lambda := smallLambda b.lambdaDef b.lambdaL (env.ub b.nub)
    sigmaInit := 2 * (10 : ℝ) ^ (-2 * env.ub (b.nub + 1)) })).trans ?_
  rw [Out.bind_map]
  exact Out.bind_congr _ fun q => rfl

theorem smallRun_flip (env : Env n) (fuel : ℕ) (l : Loop n) :
    smallRun env.flip fuel l.flip = Except.map (Option.map Loop.flip) (smallRun env fuel l) := by
  unfold smallRun
  rw [show l.flip.b = l.b.flip from rfl, r2_flip, Out.map_bind, Out.bind_map]
  refine Out.bind_congr _ fun b1 => ?_
  rw [Out.map_bind]
  refine (congrArg (· >>= _) (Strat.resetSearchState_flip env (b1.setMaxFevals (l.budget0 / 2)).s)).trans ?_
  rw [Out.bind_map]
  refine Out.bind_congr _ fun s3 => ?_
  rw [Strat.optimize_flip, Out.map_bind, Out.bind_map]
  refine Out.bind_congr _ fun o => ?_
  cases o <;> rfl

theorem smallLoop_flip (env : Env n) (fuel k : ℕ) (l : Loop n) :
    smallLoop env.flip fuel k l.flip = Except.map (Option.map Loop.flip) (smallLoop env fuel k l) := by
  induction k generalizing l with
  | zero =>
    unfold smallLoop
    branches
  | succ k ih =>
    unfold smallLoop
    rw [Out.map_ite]
    refine if_congr (by rfl) ?_ rfl
    rw [smallRun_flip, Out.map_bind, Out.bind_map]
    refine Out.bind_congr _ fun o => ?_
    cases o with
    | none => rfl
    | some l1 => exact ih l1

theorem largeRun_flip (env : Env n) (fuel r : ℕ) (l : Loop n) :
    largeRun env.flip fuel r l.flip = Except.map (Option.map Loop.flip) (largeRun env fuel r l) := by
  unfold largeRun
  rw [Out.map_bind]
  have : (if r > 0 then do
        let b ← l.flip.b.r1
        let s ← b.s.resetSearchState env.flip
        pure { b with s := s }
      else pure l.flip.b) = Except.map flip (if r > 0 then do
        let b ← l.b.r1
        let s ← b.s.resetSearchState env
        pure { b with s := s }
      else pure l.b) := by
    rw [Out.map_ite]
    refine if_congr Iff.rfl ?_ rfl
    rw [show l.flip.b = l.b.flip from rfl, r1_flip, Out.map_bind, Out.bind_map]
    refine Out.bind_congr _ fun b => ?_
    rw [show b.flip.s = b.s.flip from rfl, Strat.resetSearchState_flip, Out.map_bind, Out.bind_map]
    exact Out.bind_congr _ fun s => rfl
  refine (congrArg (· >>= _) this).trans ?_
  rw [Out.bind_map]
  refine Out.bind_congr _ fun b1 => ?_
  show (match b1.maxFevals0 with
    | none => _
    | some m => _) = _
  cases b1.maxFevals0 with
  | none => rfl
  | some m =>
    simp only
    rw [Out.map_bind]
    refine (congrArg (· >>= _) (Strat.optimize_flip env fuel (b1.setMaxFevals m).s)).trans ?_
    rw [Out.bind_map]
    refine Out.bind_congr _ fun o => ?_
    cases o <;> rfl

theorem outer_flip (env : Env n) (fuel k r : ℕ) (l : Loop n) :
    outer env.flip fuel k r l.flip = Except.map (Option.map Loop.flip) (outer env fuel k r l) := by
  induction k generalizing r l with
  | zero => rfl
  | succ k ih =>
    unfold outer
    rw [smallLoop_flip, Out.map_bind, Out.bind_map]
    refine Out.bind_congr _ fun o => ?_
    cases o with
    | none => rfl
    | some l1 =>
      simp only [Option.map_some]
      rw [largeRun_flip, Out.map_bind, Out.bind_map]
      refine Out.bind_congr _ fun o => ?_
      cases o with
      | none => rfl
      | some l2 => exact ih (r + 1) l2

theorem optimize_flip (env : Env n) (fuel : ℕ) (b : Bipop n) :
    b.flip.optimize env.flip fuel = Except.map (Option.map Loop.flip) (b.optimize env fuel) :=
  outer_flip env fuel b.s.p.nrestarts 0 ⟨b, 0, 0, none⟩

end Bipop

end Libcmaes
