import Verif.Spec.Engine
import Verif.Lemmas.RestartWit
import Verif.Props.Sampling

/-! # Programs with two optimisers -/

namespace Libcmaes

open Spec Matrix

variable {n m : ℕ}

theorem run_cons {E : Engine} (ja : Job n) (jb : Job m) (w : Proc E n m) (a : Act) (l : List Act) :
    w.run ja jb (a :: l) = (w.step ja jb a >>= fun w' => w'.run ja jb l) := rfl

theorem run_append {E : Engine} (ja : Job n) (jb : Job m) (w : Proc E n m) (l l' : List Act) :
    w.run ja jb (l ++ l') = (w.run ja jb l >>= fun w' => w'.run ja jb l') := by
  unfold Proc.run
  rw [List.foldlM_append]

/-- Generations of `B` read the engine and `B` only, and leave `A` alone. -/
theorem run_genB {E : Engine} (ja : Job n) (jb : Job m) (k : ℕ) (w w1 w2 : Proc E n m) (h1 : w.st = w1.st)
    (h2 : w.b = w1.b) (h : w.run ja jb (List.replicate k .genB) = .ok w2) :
    w2.a = w.a ∧ ∃ w3, w1.run ja jb (List.replicate k .genB) = .ok w3 ∧ w3.b = w2.b ∧ w3.st = w2.st := by
  induction k generalizing w w1 with
  | zero =>
    injection h with h
    subst h
    exact ⟨rfl, w1, rfl, h2.symm, h1.symm⟩
  | succ k ih =>
    rw [List.replicate_succ, run_cons] at h
    obtain ⟨w', hs, h⟩ := Out.bind_eq_ok.1 h
    unfold Proc.step at hs
    simp only at hs
    cases hb : w.b with
    | none => rw [hb] at hs; cases hs
    | some c =>
      rw [hb] at hs
      obtain ⟨⟨st, c'⟩, hg, hs⟩ := Out.bind_eq_ok.1 hs
      injection hs with hs
      subst hs
      obtain ⟨ha, w3, h3, h4, h5⟩ := ih { w with st := st, b := some c' } { w1 with st := st, b := some c' } rfl rfl h
      refine ⟨ha, w3, ?_, h4, h5⟩
      rw [List.replicate_succ, run_cons]
      have : w1.step ja jb .genB = .ok { w1 with st := st, b := some c' } := by
        unfold Proc.step
        simp only
        rw [← h2, hb, ← h1]
        simp only [hg, Out.ok_bind]
        rfl
      rw [this]
      exact h3

/-- One generation of an optimiser that is `Live`, from the numbers drawn. -/
theorem generation_client {E : Engine} {env : Env n} {c : Client n} {st : E.State} (hL : Live c.s) (hr : RefNum c.s)
    (hgp : c.s.p.gp = GenoPheno.plain) (hf : ∀ k y, (env.f k y).IsNum) :
    ∃ c' pop s1, E.generation env st c = .ok ((E.draw n c.s.p.lambda st).2, c') ∧ c'.pops = c.pops ++ [pop] ∧
      c.s.ask { env with z := fun k => (E.draw n c.s.p.lambda st).1 (k - c.s.nz) } = .ok (pop, s1) ∧
      c.s.generation { env with z := fun k => (E.draw n c.s.p.lambda st).1 (k - c.s.nz) } = .ok c'.s ∧
      Live c'.s ∧ RefNum c'.s ∧ c'.s.p = c.s.p := by
  set env' : Env n := { env with z := fun k => (E.draw n c.s.p.lambda st).1 (k - c.s.nz) } with he
  rcases generation_total_num (env := env') hL (fun k y => hf k y) hr with ⟨s', h1, h2, h3⟩ | ⟨x, e, h1, _⟩
  swap
  · rw [hgp, phenoV_plain] at h1; cases h1
  have hg := h1
  unfold Strat.generation at h1
  obtain ⟨⟨pop, s1⟩, ha, h1⟩ := Out.bind_eq_ok.1 h1
  refine ⟨⟨s', c.pops ++ [pop]⟩, pop, s1, ?_, rfl, ha, hg, h2, h3, ?_⟩
  · unfold Engine.generation
    simp only [← he, ha, hg, Out.ok_bind]
    rfl
  · obtain ⟨tr, hrun⟩ := Strat.generation_run hg
    exact (run_p hrun).1

/-- Different draws give different candidates. -/
theorem ask_ne {env : Env n} {s s1 s2 : Strat n} {z1 z2 : ℕ → Vec n} {pop1 pop2 : List (Vec n)} (hL : Live s)
    (hsep : s.p.sep = false) (hlz : s.p.lazyUpdate = false ∨ s.niter = 0) (hfx : s.p.fixedP = [])
    (h1 : s.ask { env with z := z1 } = .ok (pop1, s1)) (h2 : s.ask { env with z := z2 } = .ok (pop2, s2))
    (hz : ∃ j < s.p.lambda, z1 (s.nz + j) ≠ z2 (s.nz + j)) : pop1 ≠ pop2 := by
  intro he
  subst he
  obtain ⟨_, hC, _⟩ := hL.full hsep
  obtain ⟨A, hA, hAs⟩ := C19_full env.eig s.sol.cov hC.psd
  obtain ⟨j, hj, hne⟩ := hz
  obtain ⟨x, hx, hx'⟩ := hAs { env with z := z1 } s s1 pop1 rfl rfl hsep hL.vd hL.grad (Or.inl hL.tpa) hlz h1 j hj
  obtain ⟨y, hy, hy'⟩ := hAs { env with z := z2 } s s2 pop1 rfl rfl hsep hL.vd hL.grad (Or.inl hL.tpa) hlz h2 j hj
  rw [hx] at hy
  injection hy with hy
  subst hy
  have hfree : ∀ i, Free s.p i := by
    intro i v hv; rw [hfx] at hv; cases hv
  have heq : A.mulVec (z1 (s.nz + j) - z2 (s.nz + j)) = 0 := by
    ext i
    have a := hx' i (hfree i)
    have b := hy' i (hfree i)
    rw [mulVec_sub]
    have hs := hL.sigma.ne'
    have : s.sol.sigma * A.mulVec (z1 (s.nz + j)) i = s.sol.sigma * A.mulVec (z2 (s.nz + j)) i := by linarith
    have := mul_left_cancel₀ hs this
    simp [this]
  apply hne
  by_contra hd
  -- `A` is invertible, its square being positive definite
  have hq := hC.pos
  have hdet : IsUnit A.det := by
    by_contra hu
    have hu0 : A.det = 0 := by
      by_contra h0; exact hu (isUnit_iff_ne_zero.2 h0)
    obtain ⟨v, hv0, hv⟩ := Matrix.exists_vecMul_eq_zero_iff.2 hu0
    have := hq v hv0
    unfold quad at this
    rw [← hA, ← mulVec_mulVec, dotProduct_mulVec, hv, zero_dotProduct] at this
    exact lt_irrefl _ this
  have := Matrix.eq_zero_of_mulVec_eq_zero hdet.ne_zero heq
  exact hd (sub_eq_zero.1 this)

theorem step_newA {E : Engine} {ja : Job n} {jb : Job m} {q : E.State} {a : Option (Client n)} {b : Option (Client m)}
    {st : E.State} {c : Client n} (h : E.create ja.env ja.kind ja.p = .ok (st, c)) :
    Proc.step (E := E) ja jb ⟨q, a, b⟩ .newA = .ok ⟨st, some c, b⟩ := by
  simp only [Proc.step, h, Out.ok_bind]
  rfl

theorem step_newB {E : Engine} {ja : Job n} {jb : Job m} {q : E.State} {a : Option (Client n)} {b : Option (Client m)}
    {st : E.State} {c : Client m} (h : E.create jb.env jb.kind jb.p = .ok (st, c)) :
    Proc.step (E := E) ja jb ⟨q, a, b⟩ .newB = .ok ⟨st, a, some c⟩ := by
  simp only [Proc.step, h, Out.ok_bind]
  rfl

theorem step_genA {E : Engine} {ja : Job n} {jb : Job m} {q : E.State} {b : Option (Client m)}
    {st : E.State} {c c' : Client n} (h : E.generation ja.env q c = .ok (st, c')) :
    Proc.step (E := E) ja jb ⟨q, some c, b⟩ .genA = .ok ⟨st, some c', b⟩ := by
  simp only [Proc.step, h, Out.ok_bind]
  rfl

theorem step_genB {E : Engine} {ja : Job n} {jb : Job m} {q : E.State} {a : Option (Client n)}
    {st : E.State} {c c' : Client m} (h : E.generation jb.env q c = .ok (st, c')) :
    Proc.step (E := E) ja jb ⟨q, a, some c⟩ .genB = .ok ⟨st, a, some c'⟩ := by
  simp only [Proc.step, h, Out.ok_bind]
  rfl

theorem run_step {E : Engine} {ja : Job n} {jb : Job m} {w w' w'' : Proc E n m} {a : Act} {l : List Act}
    (h : w.step ja jb a = .ok w') (h' : w'.run ja jb l = .ok w'') : w.run ja jb (a :: l) = .ok w'' := by
  rw [run_cons, h]
  exact h'

/-- An optimiser with default settings, just constructed. -/
theorem create_default {E : Engine} (env : Env n) (kind : CovKind) {x0 : Vec n} {sigma : ℝ} {seed clock : ℕ}
    {p : Params n} (hk : kind ≠ .vd) (hp : Params.make x0 sigma (-1) seed clock GenoPheno.plain = .ok p) :
    ∃ s, E.create env kind p = .ok (E.seed p.seed, ⟨s, []⟩) ∧ Live s ∧ RefNum s ∧ s.niter = 0 ∧ s.nz = 0 ∧
      s.p = { p with sigmaInit := s.sol.sigma } := by
  obtain ⟨hu, hgp, -⟩ := usual_default (by norm_num) hp hk
  obtain ⟨s, hs⟩ := new_plain (env := { env with z := (E.draw n 1 (E.seed p.seed)).1 }) (kind := kind) hgp
    hu.configured.good.1
  obtain ⟨hL, hr⟩ := live_new hu hs
  refine ⟨s, ?_, hL, hr, (begins_new hs).niter, ?_, (begins_new hs).params⟩
  · unfold Engine.create
    rw [hs]; rfl
  · unfold Strat.new at hs
    obtain ⟨⟨p', sol⟩, hm, hs⟩ := Out.bind_eq_ok.1 hs
    injection hs with hs
    subst hs
    rfl

end Libcmaes
