import Verif.Lemmas.Eval
import Verif.Lemmas.Step
import Verif.Lemmas.LazyActive
import Verif.Lemmas.Total
import Verif.Lemmas.Sim
import Verif.Props.Sampling
import Verif.Spec.HandLoop

/-!
# Lemmas for a loop written by hand: `ask` again, other numbers of columns, `tell` again
-/

namespace Libcmaes

open Spec Matrix

variable {n : ℕ} {α : Type}

namespace Strat

/-- With no lazy date in the future a second preparation changes nothing. -/
theorem askPrepare_again {env : Env n} {s t : Strat n} (m : ℕ)
    (hl : s.p.lazyUpdate = false ∨ s.niter = 0 ∨ s.p.sep = true ∨ s.p.vd = true)
    (h : s.askPrepare env = .ok t) : ({ t with nz := m } : Strat n).askPrepare env = .ok { t with nz := m } := by
  unfold askPrepare at h
  split_ifs at h with h1 h2 h3 h4 h5 h6
  · injection h with h
    subst h
    unfold askPrepare
    simp only
    rw [if_pos h1, if_pos (by
      simp only [Bool.and_eq_true, Bool.not_eq_true'] at h1
      rcases hl with hl | hl | hl | hl
      · exact Or.inr (Or.inl hl)
      · exact Or.inl hl
      · rw [h1.1] at hl; exact absurd hl (by simp)
      · rw [h1.2] at hl; exact absurd hl (by simp)), if_neg h3]
  · exfalso
    simp only [Bool.and_eq_true, Bool.not_eq_true'] at h1
    push Not at h2
    rcases hl with hl | hl | hl | hl
    · exact h2.2.1 hl
    · exact h2.1 hl
    · rw [h1.1] at hl; exact absurd hl (by simp)
    · rw [h1.2] at hl; exact absurd hl (by simp)
  · injection h with h
    subst h
    unfold askPrepare
    simp only
    rw [if_neg h1, if_neg h4, if_pos h5, if_pos h6]
  · injection h with h
    subst h
    unfold askPrepare
    simp only
    rw [if_neg h1, if_neg h4, if_neg h5]

/-- The sampling step from the next draws. -/
theorem askSample_again {env : Env n} {t s1 : Strat n} {pop : List (Vec n)} (h : t.askSample env = .ok (pop, s1)) :
    s1 = { t with nz := t.nz + t.p.lambda } ∧
    ∃ pop', s1.askSample env = .ok (pop', { s1 with nz := s1.nz + t.p.lambda }) ∧
      t.askSample { env with z := fun k => env.z (k + t.p.lambda) } = .ok (pop', s1) := by
  have hz : ((List.range t.p.lambda).map fun j => env.z (t.nz + t.p.lambda + j)) =
      (List.range t.p.lambda).map fun j => env.z (t.nz + j + t.p.lambda) := by
    refine List.map_congr_left fun j _ => ?_
    rw [show t.nz + t.p.lambda + j = t.nz + j + t.p.lambda by omega]
  unfold askSample at h
  simp only at h
  split_ifs at h with h1 h2 h3 h4 h5
  all_goals
    injection h with h
    injection h with h6 h7
    subst h7
    refine ⟨rfl, ?_⟩
    apply Exists.intro
    apply And.intro
    · unfold askSample
      simp only
      first
        | rw [if_pos h1, if_neg h2, hz]
        | rw [if_neg h1, if_pos h3, hz]
        | rw [if_neg h1, if_neg h3, if_neg h4, if_neg h5, hz]
    · unfold askSample
      simp only
      first
        | rw [if_pos h1, if_neg h2]
        | rw [if_neg h1, if_pos h3]
        | rw [if_neg h1, if_neg h3, if_neg h4, if_neg h5]

/-- Putting `ask` together when nothing is injected. -/
theorem ask_of_parts {env : Env n} {s t s1 : Strat n} {pop1 pop : List (Vec n)} (hg : s.p.withGradient = false)
    (ht : s.p.tpa ≠ 2 ∨ s.niter = 0) (h1 : s.askPrepare env = .ok t) (h2 : t.askSample env = .ok (pop1, s1))
    (h3 : pop1.mapM (setFixed s.p.fixedP) = .ok pop) : s.ask env = .ok (pop, s1) := by
  obtain ⟨es, ei, ue, e1⟩ := Strat.askPrepare_frame h1
  obtain ⟨e2, -⟩ := Strat.askSample_frame h2
  have ep : s1.p = s.p := by rw [e2, e1]
  have en : s1.niter = s.niter := by rw [e2, e1]
  have hgr : s1.askGradient env pop1 = .ok (pop1, s1) := by
    unfold askGradient
    rw [if_pos (by rw [ep]; exact hg)]
  have htp : s1.askTpa env pop1 = .ok (pop1, s1) := by
    unfold askTpa
    rw [if_neg (by rw [ep, en]; rintro ⟨a, b⟩; rcases ht with h | h <;> omega)]
  unfold ask
  rw [h1, Out.ok_bind, h2, Out.ok_bind]
  simp only
  rw [hgr, Out.ok_bind]
  simp only
  rw [htp, Out.ok_bind]
  simp only
  rw [h3]
  rfl

/-- Too many columns: the loop throws whatever the schedule. -/
theorem evalFold_outOfRange {env : Env n} {cols phen : List (Vec n)} (l : List ℕ) {s : Strat n}
    (hb : ∀ r ∈ l, r < cols.length ∧ (phen ≠ [] → r < phen.length)) (hx : ∃ r ∈ l, s.sol.cands.length ≤ r) :
    l.foldlM (evalOne env cols phen) s = .error .outOfRange := by
  induction l generalizing s with
  | nil => obtain ⟨r, hr, _⟩ := hx; exact absurd hr (by simp)
  | cons a l ih =>
    rw [List.foldlM_cons]
    obtain ⟨h1, h2⟩ := hb a (by simp)
    by_cases ha : s.sol.cands.length ≤ a
    · have e1 : idx cols a = .ok (cols[a]) := by rw [idx_eq_ok, List.getElem?_eq_getElem h1]
      have e2 : at! s.sol.cands a = .error .outOfRange := by
        unfold at!
        rw [List.getElem?_eq_none_iff.2 ha]
      unfold evalOne
      rw [e1, Out.ok_bind, e2]
      rfl
    · rw [evalOne_eq ⟨h1, by omega, h2⟩, Out.ok_bind]
      refine ih (fun r hr => hb r (by simp [hr])) ?_
      obtain ⟨r, hr, hr2⟩ := hx
      rcases List.mem_cons.1 hr with rfl | hr
      · exact absurd hr2 ha
      · exact ⟨r, hr, by simpa using hr2⟩

end Strat

/-- When the mean is already the weighted sum of the selected candidates the update only shortens the
paths. -/
theorem covarianceUpdate_still {eig : EigSolver n} {k : CovKind} {p : Params n} {es : Es n} {s s' : Sol n}
    (hw : ∑ i ∈ Finset.range p.mu, p.weights i = 1) (hx : s.xmean = recombine p s.cands)
    (h : covarianceUpdate eig k p es s = .ok s') :
    s'.psigma = (1 - p.csigma) • s.psigma ∧ s'.pc = (1 - p.cc) • s.pc := by
  have hact : recombineActive p s = recombine p s.cands := by
    funext j
    unfold recombineActive recombine
    simp only [mul_sub, Finset.sum_sub_distrib, ← Finset.sum_mul, hw]
    ring
  have hd : diffMean s (recombine p s.cands) = 0 := by
    funext j
    unfold diffMean
    rw [hx]; simp
  unfold covarianceUpdate at h
  cases k with
  | plain =>
    simp only at h
    split_ifs at h with hs
    · obtain ⟨h0, _, csq, hb, _, _, rfl⟩ := covUpdateSep_ok h
      constructor
      · show psNextSep p s csq (recombine p s.cands) = _
        unfold psNextSep; rw [hd]; simp
      · show pcNext p s _ (recombine p s.cands) = _
        unfold pcNext; rw [hd]; simp
    · obtain ⟨h0, _, csq, hb, _, _, rfl⟩ := covUpdateFull_ok h
      constructor
      · show psNext p s csq (recombine p s.cands) = _
        unfold psNext; rw [hd]; simp
      · show pcNext p s _ (recombine p s.cands) = _
        unfold pcNext; rw [hd]; simp
  | active =>
    simp only at h
    split_ifs at h with hs
    · obtain ⟨h0, _, _, _, csq, hb, cm, _, _, _, rfl⟩ := acovUpdateSep_ok h
      constructor
      · show psNextSep p s csq (recombineActive p s) = _
        unfold psNextSep; rw [hact, hd]; simp
      · show pcNext p s _ (recombineActive p s) = _
        unfold pcNext; rw [hact, hd]; simp
    · obtain ⟨h0, _, _, _, csq, hb, cm, _, _, _, rfl⟩ := acovUpdateFull_ok h
      constructor
      · show psNext p s csq (recombineActive p s) = _
        unfold psNext; rw [hact, hd]; simp
      · show pcNext p s _ (recombineActive p s) = _
        unfold pcNext; rw [hact, hd]; simp
  | vd =>
    obtain ⟨h0, _, _, _, _, hb, g, _, _, rfl⟩ := vdUpdate_ok h
    constructor
    · show psNextSep p s _ (recombine p s.cands) = _
      unfold psNextSep; rw [hd]; simp
    · unfold vdNext vdPaths
      simp [hd]

/-- Candidates in ascending order are a strict weak ordering as far as they were one before. -/
theorem strictWeakOn_perm {lt : α → α → Prop} {l m : List α} (h : m.Perm l) (hs : StrictWeakOn lt l) :
    StrictWeakOn lt m := by
  obtain ⟨h1, h2, h3⟩ := hs
  have hm : ∀ a, a ∈ m → a ∈ l := fun a ha => h.mem_iff.1 ha
  refine ⟨?_, ?_, ?_⟩
  · intro a ha; exact h1 a (hm a ha)
  · intro a ha b hb c hc; exact h2 a (hm a ha) b (hm b hb) c (hm c hc)
  · intro a ha b hb c hc; exact h3 a (hm a ha) b (hm b hb) c (hm c hc)

/-- One further `tell`. -/
theorem tell_again {env : Env n} {s s1 s2 : Strat n} (hg : GoodParams s.p) (huh : s.p.uh = false)
    (h1 : s.tell env = .ok s1) (h2 : s1.tell env = .ok s2) :
    s1.p = s.p ∧ s2.sol.cands = s1.sol.cands ∧ s2.sol.xmean = s1.sol.xmean ∧
      s2.sol.psigma = (1 - s.p.csigma) • s1.sol.psigma ∧ s2.sol.pc = (1 - s.p.cc) • s1.sol.pc ∧
      (s.p.tpa < 2 → s2.sol.sigma =
        s1.sol.sigma * Real.exp (s.p.csigma / s.p.dsigma * (vnorm s2.sol.psigma / s.p.chi - 1))) ∧
      s2.calls = s1.calls ∧ s2.niter = s1.niter := by
  obtain ⟨a3, a4, hca, hcs, hso, ⟨cu, su, ts, bh, kb, bf, mf, bs, bi, ws, e3⟩, mx, mn, lv, le, e⟩ := Strat.tell_step h1
  have hp : s1.p = s.p := by rw [e]
  obtain ⟨b3, b4, hcb, hcs', hso', ⟨cu', su', ts', bh', kb', bf', mf', bs', bi', ws', e3'⟩, mx', mn', lv', le', e'⟩ :=
    Strat.tell_step h2
  have hsort := (stableSort_eq_ok (hso huh)).2.sorted
  rw [hcs] at hsort
  have hceq : b3.cands = s1.sol.cands := stableSort_sorted hsort (hso' (by rw [hp]; exact huh))
  have hx1 : s1.sol.xmean = recombine s.p s1.sol.cands := by
    have := (covarianceUpdate_mean hg.weights.sum_one hca).2
    rw [hcs] at this
    rw [← this, e]
  have hbx : b3.xmean = s1.sol.xmean := by rw [e3']
  have hbp : b3.psigma = s1.sol.psigma := by rw [e3']
  have hbc : b3.pc = s1.sol.pc := by rw [e3']
  have hbs : b3.sigma = s1.sol.sigma := by rw [e3']
  rw [hp] at hcb
  obtain ⟨q1, q2⟩ := covarianceUpdate_still hg.weights.sum_one (by rw [hbx, hx1, hceq]) hcb
  have hx2 := (covarianceUpdate_mean hg.weights.sum_one hcb).2
  have hs2 := covarianceUpdate_sigma hcb
  have f1 : s2.sol.psigma = b4.psigma := by rw [e']
  have f2 : s2.sol.pc = b4.pc := by rw [e']
  have f3 : s2.sol.xmean = b4.xmean := by rw [e']
  have f4 : s2.sol.sigma = b4.sigma := by
    rw [e']
    show (if _ then _ else _) = _
    rw [if_neg (by rw [hp, huh]; simp)]
  refine ⟨hp, by rw [← hcs', hceq], by rw [f3, hx2, hceq, hx1], by rw [f1, q1, hbp], by rw [f2, q2, hbc], fun ht => ?_,
    by rw [e'], by rw [e']⟩
  rw [f4, hs2, f1]
  unfold sigmaUpdate
  rw [if_pos ht, hbs]

/-- After a successful `tell` with the full covariance a further one succeeds. -/
theorem tell_again_total {env : Env n} {s s1 : Strat n} (hg : GoodParams s.p) (hst : StrictRates s.p)
    (hk : s.kind ≠ .vd) (hvd : s.p.vd = false) (hsep : s.p.sep = false) (huh : s.p.uh = false)
    (hsig : 0 < s.sol.sigma) (hlen : s.sol.cands.length = s.p.lambda) (h1 : s.tell env = .ok s1) :
    0 < s1.sol.sigma ∧ s1.sol.cands.length = s.p.lambda ∧ ∃ s2, s1.tell env = .ok s2 := by
  obtain ⟨a3, a4, hca, hcs, hso, ⟨cu, su, ts, bh, kb, bf, mf, bs, bi, ws, e3⟩, mx, mn, lv, le, e⟩ := Strat.tell_step h1
  obtain ⟨t1, tS, sol3, sol4, k1, k2, k3, k4, k5⟩ := Strat.tell_ok h1
  have hp : s1.p = s.p := by rw [e]
  have hsw := (stableSort_eq_ok (hso huh)).1
  have hperm := (stableSort_eq_ok (hso huh)).2.perm
  rw [hcs] at hperm
  have hlen1 : s1.sol.cands.length = s.p.lambda := by rw [hperm.length_eq, hlen]
  have hcf : ∃ csq hb, updatePre s.p a3 = .ok () ∧ a3.hasCov = true ∧ csqinvOf s.es a3 = .ok csq ∧ a4.hasCsq = true ∧
      a4.csqinv = csq ∧ a4.hasCov = true ∧ a4.updatedEigen = a3.updatedEigen ∧ a4.pathsOk = a3.pathsOk ∧
      a4.kcand = a3.kcand ∧ a4.sigma = sigmaUpdate s.p a3 hb := by
    have hca' := hca
    unfold covarianceUpdate at hca
    cases hkk : s.kind with
    | plain =>
      rw [hkk] at hca
      simp only at hca
      rw [if_neg (by simp [hsep])] at hca
      obtain ⟨q0, q1, csq, hb, q2, q3, rfl⟩ := covUpdateFull_ok hca
      exact ⟨csq, _, q0, q1, q2, rfl, rfl, q1, rfl, rfl, rfl, rfl⟩
    | active =>
      rw [hkk] at hca
      simp only at hca
      rw [if_neg (by simp [hsep])] at hca
      obtain ⟨q0, q1, _, _, csq, hb, cm, q2, q3, _, rfl⟩ := acovUpdateFull_ok hca
      exact ⟨csq, _, q0, q1, q2, rfl, rfl, q1, rfl, rfl, rfl, rfl⟩
    | vd => exact absurd hkk hk
  obtain ⟨csq, hb, q0, q1, q2, q3, q4, q5, q6, q7, q8, q9⟩ := hcf
  have hs3 : a3.sigma = s.sol.sigma := by rw [e3]
  have hpos4 : 0 < a4.sigma := by
    rw [q9]; exact sigmaUpdate_pos (by rw [hs3]; exact hsig) _
  have hf4 : s1.sol.sigma = a4.sigma := by
    rw [e]
    show (if _ then _ else _) = _
    rw [if_neg (by rw [huh]; simp)]
  have hes : s1.es = s.es := by rw [e]
  have heig : s.es.eig.isSome = true := by
    by_contra hn
    have hn' : s.es.eig = none := by simpa using hn
    unfold Strat.tellFinish at k5
    simp only at k5
    rw [if_neg (by have := hg.dim; omega), if_pos (by simp [hsep, hvd]), hn'] at k5
    cases k5
  refine ⟨by rw [hf4]; exact hpos4, hlen1, Strat.tell_total (by rw [hp]; exact hg) (by rw [hp]; exact hst) (by rw [e]; exact hk)
    (by rw [hp]; exact hvd) (by rw [hp]; exact huh) ?_ (by rw [hf4]; exact hpos4) (by rw [hp]; exact hlen1) ?_
    (fun h => by rw [hp, hsep] at h; exact absurd h (by simp)) (fun _ => ⟨by rw [e]; exact q5, by rw [hes]; exact heig, ?_⟩)
    (strictWeakOn_perm hperm hsw)⟩
  · have := (updatePre_ok q0).2.1
    rw [e]; show a4.pathsOk = true
    rw [q7]; simpa using this
  · obtain ⟨c0, ck, cl, med, _, hkc, _⟩ := Sol.updateBest_ok k3
    obtain ⟨cs', hcs', et⟩ := Strat.rank_ok huh k1
    have hk1 : s1.sol.kcand = s.sol.kcand := by
      rw [e]; show a4.kcand = _
      rw [q8, e3]
    have hk2 : t1.sol.kcand = s.sol.kcand := by rw [et]
    have hlt := (List.getElem?_eq_some_iff.1 hkc).1
    have hl : t1.sol.cands.length = s.p.lambda := by
      rw [et]; show cs'.length = _
      rw [(stableSort_eq_ok hcs').2.perm.length_eq, hlen]
    rw [hp, hk1, ← hk2, ← hl]
    exact hlt
  · have hu1 : s1.sol.updatedEigen = a3.updatedEigen := by rw [e]; exact q6
    have hh1 : s1.sol.hasCsq = true := by rw [e]; exact q3
    unfold csqinvOf at q2 ⊢
    rw [hu1, hh1, hes]
    by_cases hue : a3.updatedEigen = true
    · rw [if_pos hue] at q2 ⊢
      exact ⟨csq, q2⟩
    · rw [if_neg hue, if_pos rfl]
      exact ⟨_, rfl⟩

/-- Any number of further calls of `tell`. -/
theorem tellAgain_spec {env : Env n} {s s1 : Strat n} (hg : GoodParams s.p) (hst : StrictRates s.p)
    (hk : s.kind ≠ .vd) (hvd : s.p.vd = false) (hsep : s.p.sep = false) (huh : s.p.uh = false)
    (hsig : 0 < s.sol.sigma) (hlen : s.sol.cands.length = s.p.lambda) (h1 : s.tell env = .ok s1) (k : ℕ) :
    ∃ t u : Strat n, tellAgain env s1 k = .ok u ∧ t.tell env = .ok u ∧ t.p = s.p ∧ t.kind = s.kind ∧ 0 < t.sol.sigma ∧
      t.sol.cands.length = s.p.lambda ∧ u.p = s.p ∧ u.kind = s.kind ∧
      u.sol.cands = s1.sol.cands ∧ u.sol.xmean = s1.sol.xmean ∧
      u.sol.psigma = (1 - s.p.csigma) ^ k • s1.sol.psigma ∧ u.sol.pc = (1 - s.p.cc) ^ k • s1.sol.pc ∧
      (s.p.tpa < 2 → u.sol.sigma = s1.sol.sigma * Real.exp (s.p.csigma / s.p.dsigma *
        ∑ j ∈ Finset.range k, ((1 - s.p.csigma) ^ (j + 1) * vnorm s1.sol.psigma / s.p.chi - 1))) ∧
      u.calls = s1.calls ∧ u.niter = s1.niter := by
  induction k with
  | zero =>
    have hp : s1.p = s.p ∧ s1.kind = s.kind := by
      obtain ⟨_, _, _, _, _, _, _, _, _, _, e⟩ := Strat.tell_step h1
      rw [e]; exact ⟨rfl, rfl⟩
    exact ⟨s, s1, rfl, h1, rfl, rfl, hsig, hlen, hp.1, hp.2, rfl, rfl, by simp, by simp, fun _ => by simp, rfl, rfl⟩
  | succ k ih =>
    obtain ⟨t, u, hu, htu, tp, tk, ts, tl, up, uk, r1, r2, r3, r4, r5, r6, r7⟩ := ih
    obtain ⟨w1, w2, v, hv⟩ := tell_again_total (s := t) (by rw [tp]; exact hg) (by rw [tp]; exact hst)
      (by rw [tk]; exact hk) (by rw [tp]; exact hvd) (by rw [tp]; exact hsep) (by rw [tp]; exact huh) ts (by rw [tp]; exact tl) htu
    obtain ⟨_, a1, a2, a3, a4, a5, a6, a7⟩ := tell_again (by rw [tp]; exact hg) (by rw [tp]; exact huh) htu hv
    have hp : v.p = u.p ∧ v.kind = u.kind := by
      obtain ⟨_, _, _, _, _, _, _, _, _, _, e⟩ := Strat.tell_step hv
      rw [e]; exact ⟨rfl, rfl⟩
    rw [tp] at a3 a4 a5 w2
    have hps : v.sol.psigma = (1 - s.p.csigma) ^ (k + 1) • s1.sol.psigma := by
      rw [a3, r3, smul_smul, pow_succ, mul_comm]
    refine ⟨u, v, ?_, hv, up, uk, w1, w2, by rw [hp.1, up], by rw [hp.2, uk], by rw [a1, r1], by rw [a2, r2], hps, ?_,
      fun ht => ?_, by rw [a6, r6], by rw [a7, r7]⟩
    · show (tellAgain env s1 k >>= fun t => t.tell env) = _
      rw [hu, Out.ok_bind, hv]
    · rw [a4, r4, smul_smul, pow_succ, mul_comm]
    · have hn : vnorm v.sol.psigma = (1 - s.p.csigma) ^ (k + 1) * vnorm s1.sol.psigma := by
        rw [hps]
        have h0 : 0 ≤ (1 - s.p.csigma) ^ (k + 1) := pow_nonneg (by have := hg.rates.csigma_lt; linarith) _
        have := Aff.vnorm_smul ((1 - s.p.csigma) ^ (k + 1)) s1.sol.psigma
        rw [abs_of_nonneg h0] at this
        exact this
      rw [a5 ht, r5 ht, hn, Finset.sum_range_succ, mul_assoc, ← Real.exp_add, mul_add]

theorem Params.make_tpa {x0 : Vec n} {sigma : ℝ} {lambda : ℤ} {seed clock : ℕ} {gp : GenoPheno} {p : Params n}
    (h : Params.make x0 sigma lambda seed clock gp = .ok p) : p.tpa = 1 := by
  unfold Params.make at h
  obtain ⟨l, -, h⟩ := Out.bind_eq_ok.1 h
  obtain ⟨mu, w, muw, cs, cc, c1, cm, ds, fs, fc, ch, lv, rl, al, e⟩ := initializeParameters_frame h
  rw [e]; rfl

/-- The inverse root is stored after `tell` with the full covariance. -/
theorem tell_hasCsq {env : Env n} {s s1 : Strat n} (hk : s.kind ≠ .vd) (hsep : s.p.sep = false)
    (h : s.tell env = .ok s1) : s1.sol.hasCsq = true := by
  obtain ⟨a3, a4, hca, _, _, _, mx, mn, lv, le, e⟩ := Strat.tell_step h
  have : a4.hasCsq = true := by
    unfold covarianceUpdate at hca
    cases hkk : s.kind with
    | plain =>
      rw [hkk] at hca
      simp only at hca
      rw [if_neg (by simp [hsep])] at hca
      obtain ⟨q0, q1, csq, hb, q2, q3, rfl⟩ := covUpdateFull_ok hca
      rfl
    | active =>
      rw [hkk] at hca
      simp only at hca
      rw [if_neg (by simp [hsep])] at hca
      obtain ⟨q0, q1, _, _, csq, hb, cm, q2, q3, _, rfl⟩ := acovUpdateFull_ok hca
      rfl
    | vd => exact absurd hkk hk
  rw [e]; exact this

end Libcmaes
