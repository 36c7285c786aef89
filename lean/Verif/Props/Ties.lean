import Verif.Props.Distribution
import Verif.Props.Total
import Verif.Lemmas.LazyActive
import Verif.Lemmas.Sigmas

/-!
# C34 with equal values

`Usual`: Spec/Usual.lean.
-/

namespace Libcmaes

open Spec Finset

variable {n : ℕ}

/-- Telling candidates of equal value. -/
theorem tell_ties {env : Env n} {s t : Strat n} {v : EReal} (hw : GoodWeights s.p) (huh : s.p.uh = false)
    (hv : ∀ c ∈ s.sol.cands, c.fvalue = .num v) (h : s.tell env = .ok t) :
    s.p.mu ≤ s.sol.cands.length ∧ ∀ k, t.sol.xmean k = ∑ i ∈ range s.p.mu, s.p.weights i * candX s.sol.cands i k := by
  obtain ⟨sol3, sol4, hc, hcs, hso, _, mx, mn, lv, le, e⟩ := Strat.tell_step h
  have hst := stableSort_sorted (List.pairwise_of_forall_mem_list fun a ha b hb => by
    show ¬ FVal.lt b.fvalue a.fvalue
    rw [hv a ha, hv b hb]
    exact lt_irrefl v) (hso huh)
  obtain ⟨hmu, hx⟩ := covarianceUpdate_mean hw.sum_one hc
  rw [hst] at hmu hx
  refine ⟨hmu, fun k => ?_⟩
  have hx' : t.sol.xmean = recombine s.p s.sol.cands := by rw [← hx, e]
  rw [hx']
  rfl

/-- **C34** is false with equal values.  After any number of generations of any search of a constant objective, let the candidates of
the next generation, the first being `a` and the last `b`, be told with these two exchanged: the new mean changes by `w₁ (b - a)`,
`w₁` the first weight. -/
theorem C34_ties_false (env : Env n) (kind : CovKind) (p : Params n) (s0 s s1 s2 : Strat n) (g : ℕ) (pop phen : List (Vec n)) (v : EReal)
    (hu : Usual kind p) (hel : p.elitist = false ∧ p.initialElitist = false ∧ p.initialElitistOnRestart = false)
    (hv : ∀ k y, env.f k y = .num v) (h0 : Strat.new env kind p = .ok s0)
    (hg : s0.generations env g = .ok s) (h1 : s.ask env = .ok (pop, s1)) (h2 : s1.eval env pop phen = .ok s2) :
    ∃ (a b : Cand n) (mid : List (Cand n)) (t t' : Strat n), s2.sol.cands = a :: (mid ++ [b]) ∧
      pop.head? = some a.x ∧ pop.getLast? = some b.x ∧ s2.tell env = .ok t ∧ ({ s2 with sol := { s2.sol with cands := b :: (mid ++ [a]) } } : Strat n).tell env = .ok t' ∧
      t'.sol.xmean - t.sol.xmean = p.weights 0 • (b.x - a.x) ∧ 0 < p.weights 0 := by
  have hf : ∀ k y, (env.f k y).IsNum := fun k y => by rw [hv]; trivial
  obtain ⟨hL0, hr0⟩ := live_new hu h0
  obtain ⟨hL, hps⟩ : Live s ∧ s.p = s0.p := by
    rcases generations_total hL0 hf hr0 g with ⟨s', i1, i2, _, i4⟩ | ⟨x, e, _, i2⟩
    · rw [hg] at i1; injection i1 with i1; subst i1; exact ⟨i2, i4⟩
    · rw [hg] at i2; cases i2
  have hsp : s.p = { p with sigmaInit := s0.sol.sigma } := by rw [hps, (Strat.new_ok h0).2.2.2.1]
  obtain ⟨pop', s1', hask, hR⟩ := hL.toLiveCore.ready (env := env) hL.moved
  rw [h1] at hask
  injection hask with hask
  injection hask with ha1 ha2
  subst ha1 ha2
  obtain ⟨⟨es, ei, ue, c, nz, x1, x2, p1, p2, e1⟩, hpl⟩ := Strat.ask_frame h1
  obtain ⟨c2, nu, nzuh, lr, cu, cs, e2, hcs, _⟩ := Strat.eval_frame h2
  have hp1 : s1.p = s.p := by rw [e1]
  have hp2 : s2.p = s.p := by rw [e2, e1]
  have hlen : s2.sol.cands.length = s.p.lambda := by
    rw [e2]
    show cs.length = _
    rw [hcs, e1]; exact hL.cands
  have hval : ∃ w : EReal, ∀ c ∈ s2.sol.cands, c.fvalue = .num w := by
    obtain ⟨w, hw⟩ : ∃ w : EReal, ∀ k y, negIf s1.negate (env.f k y) = .num w := by
      cases s1.negate
      · exact ⟨v, fun k y => hv k y⟩
      · exact ⟨-v, fun k y => by rw [hv]; rfl⟩
    refine ⟨w, fun c hc => ?_⟩
    rcases Strat.eval_values (by rw [hp1]; exact hL.uh) (by rw [hpl, e1]; exact hL.cands.le) h2 c hc with ⟨j, y, e, _⟩ | ⟨e, _⟩
    · rw [e, hw]
    · exfalso
      unfold Strat.elitismOn at e
      rw [hp1, hsp] at e
      simp [hel.1, hel.2.1, hel.2.2] at e
  obtain ⟨w, hval⟩ := hval
  have hmul : s.p.mu < s.p.lambda := by have := hL.good.mu; have := hL.good.lambda; omega
  have hw := hL.good.weights
  have hmp := hw.mu_pos
  obtain ⟨a, mid, b, hcand⟩ : ∃ a mid b, s2.sol.cands = a :: (mid ++ [b]) := by
    cases hc : s2.sol.cands with
    | nil => rw [hc] at hlen; simp at hlen; omega
    | cons a l =>
      rcases List.eq_nil_or_concat l with rfl | ⟨mid, b, rfl⟩
      · rw [hc] at hlen; simp at hlen; omega
      · exact ⟨a, mid, b, by rw [List.concat_eq_append]⟩
  have hR2 : Ready env s2 := by rw [e2]; exact hR.change
  have htell : ∀ cs : List (Cand n), cs.length = s.p.lambda → (∀ c ∈ cs, c.fvalue = .num w) →
      ∃ t, ({ s2 with sol := { s2.sol with cands := cs } } : Strat n).tell env = .ok t ∧
        ∀ k, t.sol.xmean k = ∑ i ∈ range s.p.mu, s.p.weights i * candX cs i k := by
    intro cs hl hc
    have hR3 : Ready env ({ s2 with sol := { s2.sol with cands := cs } } : Strat n) := by
      exact hR2.change (c := s2.calls) (ne := s2.nevals) (nu := s2.nu) (nz := s2.nzuh) (cr := s2.crit)
        (lr := s2.sol.lambdaReev) (sne := s2.sol.nevals) (cu := s2.sol.candsUh) (cs := cs)
    have hsw : StrictWeakOn candLt cs := strictWeakOn_of_noNaN fun c h => by rw [hc c h]; trivial
    obtain ⟨cs', hcs'⟩ : ∃ cs', stableSort candLt cs = .ok cs' := by
      unfold stableSort; rw [if_pos hsw]; exact ⟨_, rfl⟩
    have hrk : ({ s2 with sol := { s2.sol with cands := cs } } : Strat n).rank env =
        .ok { s2 with sol := { s2.sol with cands := cs' } } := by
      unfold Strat.rank
      rw [if_neg (by rw [hp2]; simp [hL.uh])]
      unfold Sol.sortCandidates
      simp only
      rw [hcs']; rfl
    obtain ⟨t, ht, _⟩ := hR3.tell hrk (by
      show cs'.length = s2.p.lambda
      rw [(stableSort_eq_ok hcs').2.perm.length_eq, hl, hp2])
    have := (tell_ties (v := w) (by show GoodWeights s2.p; rw [hp2]; exact hw) (by show s2.p.uh = false; rw [hp2]; exact hL.uh) hc ht).2
    refine ⟨t, ht, fun k => ?_⟩
    rw [this k]
    show ∑ i ∈ range s2.p.mu, s2.p.weights i * candX cs i k = _
    rw [hp2]
  have hlm : mid.length + 2 = s.p.lambda := by
    rw [← hlen, hcand]; simp
  obtain ⟨t, ht, hx⟩ := htell (a :: (mid ++ [b])) (by simp; omega) (by rw [← hcand]; exact hval)
  obtain ⟨t', ht', hx'⟩ := htell (b :: (mid ++ [a])) (by simp; omega) (fun c hc => hval c (by
    rw [hcand]
    simp only [List.mem_cons, List.mem_append, List.not_mem_nil, or_false] at hc ⊢
    tauto))
  have hcl : pop.length = s.p.lambda := hpl
  have hcx : ∀ r (hr : r < pop.length), ∀ c, s2.sol.cands[r]? = some c → c.x = pop[r] := by
    intro r hr c hc
    have hie : s1.elitismOn = false := by
      unfold Strat.elitismOn
      rw [hp1, hsp, hel.1, hel.2.1, hel.2.2]
      simp
    obtain ⟨s4, h4, e4⟩ := Strat.eval_ok (by rw [hp1]; exact hL.uh) h2
    have e5 : s4 = s1.evaluated env pop phen := by
      rcases Strat.reinject_frame h4 with x | ⟨_, _, x, _⟩
      · exact x
      · have : s1.elitismOn = true := x
        rw [hie] at this; cases this
    have : s2.sol.cands = (s1.evaluated env pop phen).sol.cands := by
      rw [e4, e5]
      rfl
    rw [this, Strat.evaluated_cands (by rw [hcl, e1]; exact hL.cands.ge), if_pos hr] at hc
    injection hc with hc
    rw [← hc]
    show colX pop r = _
    unfold colX
    rw [List.getD_eq_getElem?_getD, List.getElem?_eq_getElem hr]
    rfl
  have hw0 : p.weights 0 = s.p.weights 0 := by rw [hsp]
  refine ⟨a, b, mid, t, t', hcand, ?_, ?_, ?_, ht', ?_, by rw [hw0]; exact hw.pos 0 (by omega)⟩
  · have := hcx 0 (by omega)
    rw [hcand] at this
    rw [List.head?_eq_getElem?, List.getElem?_eq_getElem (by omega)]
    exact congrArg some (this a rfl).symm
  · have := hcx (mid.length + 1) (by omega)
    rw [hcand] at this
    rw [List.getLast?_eq_getElem?, List.getElem?_eq_getElem (by omega)]
    rw [this b (by simp)]
    congr 2
    omega
  · rw [← ht, ← hcand]
  · funext k
    rw [Pi.sub_apply, hx', hx, ← sum_sub_distrib, hw0]
    show _ = s.p.weights 0 * (b.x k - a.x k)
    rw [sum_eq_single_of_mem 0 (mem_range.2 (by omega))]
    · simp [candX, List.getD]
      ring
    · intro i hi hi0
      obtain ⟨j, rfl⟩ : ∃ j, i = j + 1 := ⟨i - 1, by omega⟩
      have hj : j < mid.length := by have := mem_range.1 hi; omega
      have : ∀ q r : Cand n, candX (q :: (mid ++ [r])) (j + 1) k = (mid[j]'hj).x k := by
        intro q r
        simp [candX, List.getD, List.getElem?_append_left hj, List.getElem?_eq_getElem hj]
      rw [this, this, sub_self]

/-- In the first generation of a default search in any dimension, from any given starting point, with draws that differ, the two means
differ. -/
theorem C34_ties_case (hn : 1 ≤ n) (env : Env n) (kind : CovKind) (x0 : Vec n) (sigma : ℝ) (seed clock : ℕ) (v : EReal)
    (hk : kind ≠ .vd) (hs : 0 < sigma) (hx : x0 ≠ fun _ => -dblMax) (hv : ∀ k y, env.f k y = .num v) (hz : Function.Injective env.z) :
    ∃ p s0 pop s1 phen s2 cs t t', Params.make x0 sigma (-1) seed clock GenoPheno.plain = .ok p ∧ Strat.new env kind p = .ok s0 ∧
      s0.ask env = .ok (pop, s1) ∧ s1.phenoCols pop = .ok phen ∧ s1.eval env pop phen = .ok s2 ∧ List.Perm cs s2.sol.cands ∧
      s2.tell env = .ok t ∧ ({ s2 with sol := { s2.sol with cands := cs } } : Strat n).tell env = .ok t' ∧
      t'.sol.xmean ≠ t.sol.xmean := by
  have hf : ∀ k y, (env.f k y).IsNum := fun k y => by rw [hv]; trivial
  obtain ⟨p, s0, hp, h0, hall⟩ := C67_default hn env kind x0 sigma seed clock hk hf
  obtain ⟨hu, _⟩ := usual_default (by norm_num) hp hk
  obtain ⟨u1, u2, u3, u4, u5, u6, u7, u8, u9, u10, u11, u12, u13, u14⟩ := Params.make_plain hp
  obtain ⟨s', hg⟩ := hall 1
  have hg1 : ∃ t, s0.generation env = .ok t := by
    unfold Strat.generations at hg
    obtain ⟨t, ht, _⟩ := Out.bind_eq_ok.1 hg
    exact ⟨t, ht⟩
  obtain ⟨t0, hg1⟩ := hg1
  unfold Strat.generation at hg1
  obtain ⟨⟨pop, s1⟩, ha, hg1⟩ := Out.bind_eq_ok.1 hg1
  obtain ⟨phen, hph, hg1⟩ := Out.bind_eq_ok.1 hg1
  obtain ⟨s2, he, hg1⟩ := Out.bind_eq_ok.1 hg1
  obtain ⟨a, b, mid, t, t', hc, ha1, hb1, ht, ht', hd, hw⟩ := C34_ties_false env kind p s0 s0 s1 s2 0 pop phen v hu ⟨u5, u4, u6⟩ hv h0 rfl ha he
  refine ⟨p, s0, pop, s1, phen, s2, b :: (mid ++ [a]), t, t', hp, h0, ha, hph, he, ?_, ht, ht', fun hm => ?_⟩
  · rw [hc]
    refine (List.Perm.cons b (List.perm_append_singleton a mid)).trans ?_
    refine (List.Perm.swap a b mid).trans ?_
    exact List.Perm.cons a (List.perm_append_singleton b mid).symm
  · obtain ⟨-, A, hA, hcand⟩ := first_candidates hp hs hx h0 env.eig
    obtain ⟨-, hlen, hcand⟩ := hcand env pop s1 rfl ha
    have hl := hu.configured.good.1.lambda
    obtain ⟨x, hx1, hx2⟩ := hcand 0 (by omega)
    obtain ⟨y, hy1, hy2⟩ := hcand (p.lambda - 1) (by omega)
    rw [List.head?_eq_getElem?, hx1] at ha1
    rw [List.getLast?_eq_getElem?, hlen, hy1] at hb1
    injection ha1 with ha1
    injection hb1 with hb1
    rw [hm, sub_self] at hd
    have hab : b.x = a.x := by
      rcases smul_eq_zero.1 hd.symm with h | h
      · exact absurd h hw.ne'
      · exact sub_eq_zero.1 h
    have hA' : A.transpose * A = 1 := mul_eq_one_comm.1 hA
    have hAz : A.mulVec (env.z (s0.nz + (p.lambda - 1))) = A.mulVec (env.z (s0.nz + 0)) := by
      funext i
      have h1 := hx2 i
      have h2 := hy2 i
      rw [ha1] at h1
      rw [hb1, hab] at h2
      have : sigma * A.mulVec (env.z (s0.nz + (p.lambda - 1))) i = sigma * A.mulVec (env.z (s0.nz + 0)) i := by linarith
      exact mul_left_cancel₀ hs.ne' this
    have := congrArg A.transpose.mulVec hAz
    rw [Matrix.mulVec_mulVec, Matrix.mulVec_mulVec, hA', Matrix.one_mulVec, Matrix.one_mulVec] at this
    have := hz this
    omega

end Libcmaes
