import Verif.Lemmas.Engine
import Verif.Props.Params

/-!
# Two optimisers in one process

C64.
-/

namespace Libcmaes

open Spec Matrix

variable {n m : ℕ}

/-- **C64, what holds**: optimisers used one after the other do not disturb each other.  Whatever the program
`l` has done before, an optimiser constructed after it and run for any number of generations returns the
populations it returns in a process of its own, and leaves the earlier optimiser as it was. -/
theorem C64_sequential_partial (E : Engine) (ja : Job n) (jb : Job m) (l : List Act) (k : ℕ) (w w0 : Proc E n m)
    (h0 : (Proc.start E n m).run ja jb l = .ok w0)
    (h : (Proc.start E n m).run ja jb (l ++ .newB :: List.replicate k .genB) = .ok w) :
    w.a = w0.a ∧ ∃ w', (Proc.start E n m).run ja jb (.newB :: List.replicate k .genB) = .ok w' ∧ w'.b = w.b := by
  rw [run_append, h0, Out.ok_bind, run_cons] at h
  obtain ⟨w1, hs, h⟩ := Out.bind_eq_ok.1 h
  unfold Proc.step at hs
  obtain ⟨⟨st, c⟩, hc, hs⟩ := Out.bind_eq_ok.1 hs
  injection hs with hs
  subst hs
  have hst : (Proc.start E n m).step ja jb .newB = .ok { Proc.start E n m with st := st, b := some c } := by
    unfold Proc.step
    simp only [hc, Out.ok_bind]
    rfl
  obtain ⟨ha, w3, h3, h4, _⟩ := run_genB ja jb k ⟨st, w0.a, some c⟩ ⟨st, none, some c⟩ w rfl rfl h
  refine ⟨ha, w3, ?_, h4⟩
  rw [run_cons, hst]
  exact h3

/-- **C64 is false** when the optimisers are used alternately.  Two optimisers with the same default settings,
any objectives without NaN, any engine that does not repeat its first block of numbers: after
`newA, newB, genA, genB` the optimiser `B` has not returned the population it returns alone. -/
theorem C64_false (E : Engine) (envA envB : Env n) (kind : CovKind) (x0 : Vec n) (sigma : ℝ) (seed clock : ℕ)
    (p : Params n) (hk : kind ≠ .vd) (hp : Params.make x0 sigma (-1) seed clock GenoPheno.plain = .ok p)
    (hfA : ∀ k y, (envA.f k y).IsNum) (hfB : ∀ k y, (envB.f k y).IsNum)
    (hE : ∃ j < p.lambda, (E.draw n p.lambda (E.draw n p.lambda (E.seed p.seed)).2).1 j ≠
      (E.draw n p.lambda (E.seed p.seed)).1 j) :
    ¬ IndependentOptimisers E ⟨envA, kind, p⟩ ⟨envB, kind, p⟩ := by
  intro hI
  obtain ⟨hu, hgp, hfx, -⟩ := usual_default (by norm_num) hp hk
  obtain ⟨f1, f2⟩ := Params.make_flags hp
  obtain ⟨s, a1, a2, a3, a4, a5, a6⟩ := create_default (E := E) envA kind hk hp
  obtain ⟨t, b1, b2, b3, b4, b5, b6⟩ := create_default (E := E) envB kind hk hp
  have hls : s.p.lambda = p.lambda := by rw [a6]
  have hlt : t.p.lambda = p.lambda := by rw [b6]
  have hgs : s.p.gp = GenoPheno.plain := by rw [a6]; exact hgp
  have hgt : t.p.gp = GenoPheno.plain := by rw [b6]; exact hgp
  obtain ⟨ca, popa, s1, c1, -⟩ := generation_client (c := ⟨s, []⟩) (st := E.seed p.seed) a2 a3 hgs hfA
  obtain ⟨cb, popb, t1, d1, d2, d3, -⟩ := generation_client (c := ⟨t, []⟩)
    (st := (E.draw n s.p.lambda (E.seed p.seed)).2) b2 b3 hgt hfB
  obtain ⟨cc, popc, t2, e1, e2, e3, -⟩ := generation_client (c := ⟨t, []⟩) (st := E.seed p.seed) b2 b3 hgt hfB
  obtain ⟨-, w', h1, h2⟩ := hI [.newA, .newB, .genA, .genB] _
    (run_step (step_newA a1) (run_step (step_newB b1) (run_step (step_genA c1) (run_step (step_genB d1) rfl))))
  have h3 : (Proc.start E n n).run ⟨envA, kind, p⟩ ⟨envB, kind, p⟩ [.newB, .genB] =
      .ok ⟨(E.draw n t.p.lambda (E.seed p.seed)).2, none, some cc⟩ :=
    run_step (step_newB b1) (run_step (step_genB e1) rfl)
  have h4 : w' = ⟨(E.draw n t.p.lambda (E.seed p.seed)).2, none, some cc⟩ := by
    have : (List.filter ofB [.newA, .newB, .genA, .genB]) = [Act.newB, .genB] := rfl
    rw [this, h3] at h1
    injection h1 with h1
    exact h1.symm
  rw [h4] at h2
  simp only [Option.map_some, Option.some.injEq] at h2
  rw [d2, e2] at h2
  simp only [List.nil_append, List.cons.injEq, and_true] at h2
  refine ask_ne b2 (by rw [b6]; exact f1) (Or.inr b4) (by rw [b6]; exact hfx) e3 d3 ?_ h2
  obtain ⟨j, hj, hne⟩ := hE
  refine ⟨j, by rw [hlt]; exact hj, ?_⟩
  show (E.draw n t.p.lambda (E.seed p.seed)).1 (t.nz + j - t.nz) ≠
    (E.draw n t.p.lambda (E.draw n s.p.lambda (E.seed p.seed)).2).1 (t.nz + j - t.nz)
  rw [hls, hlt, Nat.add_sub_cancel_left]
  exact hne.symm

/-- The mere construction of another optimiser with the same seed disturbs a search too: it seeds the engine, so
the next generation of `A` is drawn from the numbers of its first one, and its population is not the one it
returns alone. -/
theorem C64_reseed_false (E : Engine) (envA envB : Env n) (kind : CovKind) (x0 : Vec n) (sigma : ℝ) (seed clock : ℕ)
    (p : Params n) (hk : kind ≠ .vd) (hp : Params.make x0 sigma (-1) seed clock GenoPheno.plain = .ok p)
    (hfA : ∀ k y, (envA.f k y).IsNum)
    (hE : ∃ j < p.lambda, (E.draw n p.lambda (E.draw n p.lambda (E.seed p.seed)).2).1 j ≠
      (E.draw n p.lambda (E.seed p.seed)).1 j) :
    ∃ w w' : Proc E n n, (Proc.start E n n).run ⟨envA, kind, p⟩ ⟨envB, kind, p⟩ [.newA, .genA, .newB, .genA] = .ok w ∧
      (Proc.start E n n).run ⟨envA, kind, p⟩ ⟨envB, kind, p⟩ [.newA, .genA, .genA] = .ok w' ∧
      w.a.map (·.pops) ≠ w'.a.map (·.pops) := by
  obtain ⟨hu, hgp, hfx, -⟩ := usual_default (by norm_num) hp hk
  obtain ⟨f1, f2⟩ := Params.make_flags hp
  obtain ⟨-, -, -, hlz⟩ := Params.make_limits hp
  obtain ⟨s, a1, a2, a3, a4, a5, a6⟩ := create_default (E := E) envA kind hk hp
  obtain ⟨t, b1, -⟩ := create_default (E := E) envB kind hk hp
  have hls : s.p.lambda = p.lambda := by rw [a6]
  have hgs : s.p.gp = GenoPheno.plain := by rw [a6]; exact hgp
  obtain ⟨ca, popa, s1, c1, c2, c3, c4, c5, c6, c7⟩ :=
    generation_client (c := ⟨s, []⟩) (st := E.seed p.seed) a2 a3 hgs hfA
  have hlc : ca.s.p.lambda = p.lambda := by rw [c7]; exact hls
  have hgc : ca.s.p.gp = GenoPheno.plain := by rw [c7]; exact hgs
  obtain ⟨cb, popb, t1, d1, d2, d3, -⟩ := generation_client (E := E) (c := ca) (st := E.seed p.seed) c5 c6 hgc hfA
  obtain ⟨cc, popc, t2, e1, e2, e3, -⟩ := generation_client (E := E) (c := ca)
    (st := (E.draw n s.p.lambda (E.seed p.seed)).2) c5 c6 hgc hfA
  refine ⟨_, _, run_step (step_newA a1) (run_step (step_genA c1) (run_step (step_newB b1) (run_step (step_genA d1) rfl))),
    run_step (step_newA a1) (run_step (step_genA c1) (run_step (step_genA e1) rfl)), ?_⟩
  · simp only [Option.map_some, ne_eq, Option.some.injEq]
    rw [d2, e2]
    simp only [List.append_cancel_left_eq, List.cons.injEq, and_true]
    refine ask_ne c5 (by rw [c7]; show s.p.sep = false; rw [a6]; exact f1)
      (Or.inl (by rw [c7]; show s.p.lazyUpdate = false; rw [a6]; exact hlz))
      (by rw [c7]; show s.p.fixedP = []; rw [a6]; exact hfx) d3 e3 ?_
    obtain ⟨j, hj, hne⟩ := hE
    refine ⟨j, by rw [hlc]; exact hj, ?_⟩
    show (E.draw n ca.s.p.lambda (E.seed p.seed)).1 (ca.s.nz + j - ca.s.nz) ≠
      (E.draw n ca.s.p.lambda (E.draw n s.p.lambda (E.seed p.seed)).2).1 (ca.s.nz + j - ca.s.nz)
    rw [hls, hlc, Nat.add_sub_cancel_left]
    exact hne.symm

/-- An engine that counts. -/
def countingEngine : Engine where
  State := ℕ
  init := 0
  seed s := s
  draw _ cols st := (fun k _ => ((st + k : ℕ) : ℝ), st + cols)

/-- It meets the hypothesis of the two theorems, in every dimension. -/
theorem C64_witness (hn : 1 ≤ n) (x0 : Vec n) (sigma : ℝ) (seed clock : ℕ) :
    ∃ p : Params n, Params.make x0 sigma (-1) seed clock GenoPheno.plain = .ok p ∧
      ∃ j < p.lambda, (countingEngine.draw n p.lambda (countingEngine.draw n p.lambda (countingEngine.seed p.seed)).2).1 j ≠
        (countingEngine.draw n p.lambda (countingEngine.seed p.seed)).1 j := by
  obtain ⟨p, hp, _⟩ := C11_weights hn x0 sigma (-1) seed clock GenoPheno.plain
  have hl := (usual_default (by norm_num) hp (kind := .plain) (by decide)).1.configured.good.1.lambda
  refine ⟨p, hp, 0, by omega, fun h => ?_⟩
  have := congrFun h ⟨0, hn⟩
  have h2 : ((p.seed + p.lambda + 0 : ℕ) : ℝ) = ((p.seed + 0 : ℕ) : ℝ) := this
  have h3 : p.seed + p.lambda + 0 = p.seed + 0 := by exact_mod_cast h2
  omega

/-- A program to which `C64_sequential_partial` applies: two generations of `A`, then three of `B`. -/
theorem C64_sequential_witness (E : Engine) (envA envB : Env n) (kind : CovKind) (x0 : Vec n) (sigma : ℝ)
    (seed clock : ℕ) (p : Params n) (hk : kind ≠ .vd)
    (hp : Params.make x0 sigma (-1) seed clock GenoPheno.plain = .ok p)
    (hfA : ∀ k y, (envA.f k y).IsNum) (hfB : ∀ k y, (envB.f k y).IsNum) :
    ∃ w0 w : Proc E n n, (Proc.start E n n).run ⟨envA, kind, p⟩ ⟨envB, kind, p⟩ [.newA, .genA, .genA] = .ok w0 ∧
      (Proc.start E n n).run ⟨envA, kind, p⟩ ⟨envB, kind, p⟩
        ([.newA, .genA, .genA] ++ .newB :: List.replicate 3 .genB) = .ok w := by
  obtain ⟨hu, hgp, hfx, -⟩ := usual_default (by norm_num) hp hk
  obtain ⟨s, a1, a2, a3, a4, a5, a6⟩ := create_default (E := E) envA kind hk hp
  obtain ⟨t, b1, b2, b3, b4, b5, b6⟩ := create_default (E := E) envB kind hk hp
  have hgs : s.p.gp = GenoPheno.plain := by rw [a6]; exact hgp
  have hgt : t.p.gp = GenoPheno.plain := by rw [b6]; exact hgp
  obtain ⟨c1, _, _, c2, _, _, _, c3, c4, c5⟩ := generation_client (c := ⟨s, []⟩) (st := E.seed p.seed) a2 a3 hgs hfA
  obtain ⟨d1, _, _, d2, -⟩ := generation_client (E := E) (c := c1)
    (st := (E.draw n s.p.lambda (E.seed p.seed)).2) c3 c4 (by rw [c5]; exact hgs) hfA
  obtain ⟨e1, _, _, e2, _, _, _, e3, e4, e5⟩ := generation_client (c := ⟨t, []⟩) (st := E.seed p.seed) b2 b3 hgt hfB
  obtain ⟨g1, _, _, g2, _, _, _, g3, g4, g5⟩ := generation_client (E := E) (c := e1)
    (st := (E.draw n t.p.lambda (E.seed p.seed)).2) e3 e4 (by rw [e5]; exact hgt) hfB
  obtain ⟨i1, _, _, i2, -⟩ := generation_client (E := E) (c := g1)
    (st := (E.draw n e1.s.p.lambda (E.draw n t.p.lambda (E.seed p.seed)).2).2) g3 g4 (by rw [g5, e5]; exact hgt) hfB
  exact ⟨_, _, run_step (step_newA a1) (run_step (step_genA c2) (run_step (step_genA d2) rfl)),
    run_step (step_newA a1) (run_step (step_genA c2) (run_step (step_genA d2) (run_step (step_newB b1)
      (run_step (step_genB e2) (run_step (step_genB g2) (run_step (step_genB i2) rfl))))))⟩

end Libcmaes
