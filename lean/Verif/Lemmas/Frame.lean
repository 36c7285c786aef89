import Verif.Model.Restart
import Verif.Lemmas.Fixed
import Verif.Lemmas.Update

/-!
Which members each step may change.
-/

namespace Libcmaes

variable {n : ℕ}

namespace Strat

theorem updateFevals_frame (s : Strat n) (k : ℕ) :
    s.updateFevals k = { s with nevals := s.nevals + k, sol := { s.sol with nevals := s.sol.nevals + k } } :=
  rfl

theorem askPrepare_frame {env : Env n} {s s' : Strat n} (h : s.askPrepare env = .ok s') :
    ∃ es ei ue, s' = { s with es := es, sol := { s.sol with eigeniter := ei, updatedEigen := ue } } := by
  unfold askPrepare at h
  simp only at h
  split_ifs at h
  all_goals injection h with h; subst h; exact ⟨_, _, _, rfl⟩

theorem askSample_frame {env : Env n} {s s' : Strat n} {pop : List (Vec n)}
    (h : s.askSample env = .ok (pop, s')) :
    s' = { s with nz := s.nz + s.p.lambda } ∧ pop.length = s.p.lambda := by
  unfold askSample at h
  simp only at h
  split_ifs at h
  all_goals injection h with h; injection h with h1 h2; subst h1; subst h2; exact ⟨rfl, by simp⟩

theorem gradStep_frame {env : Env n} {x : Vec n} {fx : ℝ} {s s' : Strat n × Vec n} {i : ℕ}
    (h : gradStep env x fx s i = .ok s') :
    ∃ c, s'.1 = { s.1 with calls := s.1.calls ++ [c] } := by
  unfold gradStep at h
  split_ifs at h with hi
  obtain ⟨ub, _, h⟩ := Out.bind_eq_ok.1 h
  simp only [callF] at h
  obtain ⟨fv, _, h⟩ := Out.bind_eq_ok.1 h
  injection h with h
  subst h
  exact ⟨_, rfl⟩

theorem gradFold_frame {env : Env n} {x : Vec n} {fx : ℝ} (l : List ℕ) {s s' : Strat n × Vec n}
    (h : l.foldlM (gradStep env x fx) s = .ok s') :
    ∃ c, c.length = l.length ∧ s'.1 = { s.1 with calls := s.1.calls ++ c } := by
  induction l generalizing s with
  | nil =>
    injection h with h
    subst h
    exact ⟨[], rfl, by simp⟩
  | cons i l ih =>
    rw [List.foldlM_cons] at h
    obtain ⟨s1, h1, h⟩ := Out.bind_eq_ok.1 h
    obtain ⟨c, hc⟩ := gradStep_frame h1
    obtain ⟨cs, hl, hcs⟩ := ih h
    exact ⟨c :: cs, by simp [hl], by rw [hcs, hc]; simp⟩

theorem order_length (env : Env n) (s : Strat n) (m : ℕ) : (s.order env m).length = m := by
  unfold order
  split_ifs
  · rw [(env.sched _ _).2.length_eq]; simp
  · simp

theorem order_perm (env : Env n) (s : Strat n) (m : ℕ) : (s.order env m).Perm (List.range m) := by
  unfold order
  split_ifs
  · exact (env.sched _ _).2
  · exact List.Perm.refl _

theorem gradf_frame {env : Env n} {s s' : Strat n} {x g : Vec n} (h : s.gradf env x = .ok (s', g)) :
    ∃ c, s' = { s with calls := s.calls ++ c, nevals := s.nevals + c.length
                       sol := { s.sol with nevals := s.sol.nevals + c.length } } := by
  unfold gradf at h
  cases hg : env.gfunc with
  | some gf =>
    rw [hg] at h
    injection h with h
    injection h with h1 h2
    subst h1
    exact ⟨[], by simp⟩
  | none =>
    rw [hg] at h
    simp only [callF] at h
    obtain ⟨fx, _, h⟩ := Out.bind_eq_ok.1 h
    obtain ⟨⟨s2, g2⟩, h2, h⟩ := Out.bind_eq_ok.1 h
    injection h with h
    injection h with h3 h4
    obtain ⟨c, hl, hc⟩ := gradFold_frame _ h2
    rw [order_length] at hl
    simp only at hc
    refine ⟨(x, env.f s.calls.length x) :: c, ?_⟩
    rw [← h3, hc]
    simp [updateFevals, hl]

theorem askGradient_frame {env : Env n} {s s' : Strat n} {pop pop' : List (Vec n)}
    (h : s.askGradient env pop = .ok (pop', s')) :
    (∃ c, s' = { s with calls := s.calls ++ c, nevals := s.nevals + c.length
                        sol := { s.sol with nevals := s.sol.nevals + c.length } }) ∧
    (pop' = pop ∨ ∃ nx, pop' = pop.set 0 nx) := by
  unfold askGradient at h
  simp only at h
  by_cases hg : s.p.withGradient = false
  · rw [if_pos hg] at h
    injection h with h; injection h with h1 h2
    subst h1; subst h2
    exact ⟨⟨[], by simp⟩, Or.inl rfl⟩
  · rw [if_neg hg] at h
    obtain ⟨ph, _, h⟩ := Out.bind_eq_ok.1 h
    obtain ⟨⟨s1, g⟩, h1, h⟩ := Out.bind_eq_ok.1 h
    obtain ⟨gg, _, h⟩ := Out.bind_eq_ok.1 h
    have hf := gradf_frame h1
    simp only at h
    split_ifs at h
    · injection h with h; injection h with h3 h4
      subst h3; subst h4
      exact ⟨hf, Or.inl rfl⟩
    · cases he : s.es.eig with
      | none => rw [he] at h; cases h
      | some e =>
        rw [he] at h
        simp only at h
        split_ifs at h
        injection h with h; injection h with h3 h4
        subst h3; subst h4
        exact ⟨hf, Or.inr ⟨_, rfl⟩⟩
    · injection h with h; injection h with h3 h4
      subst h3; subst h4
      exact ⟨hf, Or.inr ⟨_, rfl⟩⟩

theorem askTpa_frame {env : Env n} {s s' : Strat n} {pop pop' : List (Vec n)}
    (h : s.askTpa env pop = .ok (pop', s')) :
    (∃ nz x1 x2 p1 p2, s' = { s with nz := nz, sol := { s.sol with
        tpaX1 := x1, tpaX2 := x2, tpaP1 := p1, tpaP2 := p2 } }) ∧ pop'.length = pop.length ∧
    (¬ (s.p.tpa = 2 ∧ s.niter > 0) → pop' = pop ∧ s' = s) := by
  unfold askTpa at h
  simp only at h
  by_cases hg : s.p.tpa = 2 ∧ s.niter > 0
  · rw [if_pos hg] at h
    by_cases h0 : s.sol.sigma = 0
    · rw [if_pos h0] at h; cases h
    rw [if_neg h0] at h
    obtain ⟨nrm, _, h⟩ := Out.bind_eq_ok.1 h
    split_ifs at h
    all_goals
      injection h with h; injection h with h3 h4
      subst h3; subst h4
      exact ⟨⟨_, _, _, _, _, rfl⟩, by simp, fun h => absurd hg h⟩
  · rw [if_neg hg] at h
    injection h with h; injection h with h3 h4
    subst h3; subst h4
    exact ⟨⟨_, _, _, _, _, rfl⟩, rfl, fun _ => ⟨rfl, rfl⟩⟩

/-- What `ask` may change, and the size of its result. -/
theorem ask_frame {env : Env n} {s s' : Strat n} {pop : List (Vec n)}
    (h : s.ask env = .ok (pop, s')) :
    (∃ es ei ue c nz x1 x2 p1 p2, s' = { s with
      es := es, calls := s.calls ++ c, nevals := s.nevals + c.length, nz := nz
      sol := { s.sol with
        eigeniter := ei, updatedEigen := ue, nevals := s.sol.nevals + c.length
        tpaX1 := x1, tpaX2 := x2, tpaP1 := p1, tpaP2 := p2 } }) ∧ pop.length = s.p.lambda := by
  unfold ask at h
  obtain ⟨s1, h1, h⟩ := Out.bind_eq_ok.1 h
  obtain ⟨⟨pop1, s2⟩, h2, h⟩ := Out.bind_eq_ok.1 h
  obtain ⟨⟨pop2, s3⟩, h3, h⟩ := Out.bind_eq_ok.1 h
  obtain ⟨⟨pop3, s4⟩, h4, h⟩ := Out.bind_eq_ok.1 h
  obtain ⟨pop4, h5, h⟩ := Out.bind_eq_ok.1 h
  injection h with h; injection h with h6 h7
  subst h6; subst h7
  obtain ⟨es, ei, ue, e1⟩ := askPrepare_frame h1
  obtain ⟨e2, l2⟩ := askSample_frame h2
  obtain ⟨⟨c, e3⟩, l3⟩ := askGradient_frame h3
  obtain ⟨⟨nz, x1, x2, p1, p2, e4⟩, l4, _⟩ := askTpa_frame h4
  refine ⟨⟨es, ei, ue, c, nz, x1, x2, p1, p2, ?_⟩, ?_⟩
  · rw [e4, e3, e2, e1]
  · have := Out.mapM_length h5
    have l3' : pop2.length = pop1.length := by
      rcases l3 with rfl | ⟨nx, rfl⟩ <;> simp
    rw [← this, l4, l3', l2, e1]

/-- Without gradient injection `ask` calls the objective at no point. -/
theorem ask_calls {env : Env n} {s s' : Strat n} {pop : List (Vec n)} (h : s.ask env = .ok (pop, s'))
    (hg : s.p.withGradient = false) : s'.calls = s.calls := by
  unfold ask at h
  obtain ⟨s1, h1, h⟩ := Out.bind_eq_ok.1 h
  obtain ⟨⟨pop1, s2⟩, h2, h⟩ := Out.bind_eq_ok.1 h
  obtain ⟨⟨pop2, s3⟩, h3, h⟩ := Out.bind_eq_ok.1 h
  obtain ⟨⟨pop3, s4⟩, h4, h⟩ := Out.bind_eq_ok.1 h
  obtain ⟨pop4, h5, h⟩ := Out.bind_eq_ok.1 h
  injection h with h; injection h with h6 h7
  subst h6; subst h7
  obtain ⟨es, ei, ue, e1⟩ := askPrepare_frame h1
  obtain ⟨e2, l2⟩ := askSample_frame h2
  obtain ⟨⟨nz, x1, x2, p1, p2, e4⟩, l4, _⟩ := askTpa_frame h4
  have e3 : s3 = s2 := by
    unfold askGradient at h3
    rw [if_pos (by rw [e2, e1]; exact hg)] at h3
    injection h3 with h3; injection h3 with _ h3; exact h3.symm
  rw [e4, e3, e2, e1]

/-! ### eval -/

theorem evalOne_frame {env : Env n} {cols phen : List (Vec n)} {s s' : Strat n} {r : ℕ}
    (h : evalOne env cols phen s r = .ok s') :
    ∃ x y, cols[r]? = some x ∧ r < s.sol.cands.length ∧
      (phen = [] ∧ y = x ∨ phen ≠ [] ∧ phen[r]? = some y) ∧
      s' = { s with
        calls := s.calls ++ [(y, env.f s.calls.length y)]
        sol := { s.sol with cands := (s.sol.cands.set r
          ⟨if s.negate then (env.f s.calls.length y).neg else env.f s.calls.length y, x, r⟩) } } := by
  unfold evalOne at h
  obtain ⟨x, hx, h⟩ := Out.bind_eq_ok.1 h
  obtain ⟨c, hc, h⟩ := Out.bind_eq_ok.1 h
  obtain ⟨y, hy, h⟩ := Out.bind_eq_ok.1 h
  rw [idx_eq_ok] at hx
  rw [at!_eq_ok] at hc
  simp only [callF] at h
  injection h with h
  subst h
  refine ⟨x, y, hx, ?_, ?_, rfl⟩
  · rw [List.getElem?_eq_some_iff] at hc; exact hc.1
  · cases phen with
    | nil =>
      left
      simp only [List.isEmpty_nil, if_true] at hy
      injection hy with hy
      exact ⟨rfl, hy.symm⟩
    | cons a l =>
      right
      simp only [List.isEmpty_cons, Bool.false_eq_true, if_false] at hy
      rw [idx_eq_ok] at hy
      exact ⟨by simp, hy⟩

theorem evalFold_frame {env : Env n} {cols phen : List (Vec n)} (l : List ℕ) {s s' : Strat n}
    (h : l.foldlM (evalOne env cols phen) s = .ok s') :
    ∃ c cs, c.length = l.length ∧ cs.length = s.sol.cands.length ∧
      s' = { s with calls := s.calls ++ c, sol := { s.sol with cands := cs } } := by
  induction l generalizing s with
  | nil =>
    injection h with h
    subst h
    exact ⟨[], s.sol.cands, rfl, rfl, by simp⟩
  | cons i l ih =>
    rw [List.foldlM_cons] at h
    obtain ⟨s1, h1, h⟩ := Out.bind_eq_ok.1 h
    obtain ⟨x, y, _, _, _, e⟩ := evalOne_frame h1
    obtain ⟨c, cs, hl, hcs, e'⟩ := ih h
    refine ⟨(y, env.f s.calls.length y) :: c, cs, by simp [hl], ?_, ?_⟩
    · rw [hcs, e]; simp
    · rw [e', e]; simp

theorem reevalOne_frame {env : Env n} {lreev : ℕ} {uhcols : List (Vec n)}
    {s s' : Strat n × List RankedCand × ℕ} {r : ℕ} (h : reevalOne env lreev uhcols s r = .ok s') :
    ∃ c, s'.1 = { s.1 with calls := s.1.calls ++ c } ∧ s'.2.2 = s.2.2 + c.length ∧
      c.length = (if r < lreev then 1 else 0) := by
  unfold reevalOne at h
  obtain ⟨c, _, h⟩ := Out.bind_eq_ok.1 h
  by_cases hr : r < lreev
  · rw [if_pos hr] at h
    obtain ⟨x, _, h⟩ := Out.bind_eq_ok.1 h
    simp only [callF] at h
    injection h with h
    subst h
    exact ⟨[_], rfl, rfl, by simp [hr]⟩
  · rw [if_neg hr] at h
    injection h with h
    subst h
    exact ⟨[], by simp, rfl, by simp [hr]⟩

theorem reevalFold_frame {env : Env n} {lreev : ℕ} {uhcols : List (Vec n)} (l : List ℕ)
    {s s' : Strat n × List RankedCand × ℕ} (h : l.foldlM (reevalOne env lreev uhcols) s = .ok s') :
    ∃ c, s'.1 = { s.1 with calls := s.1.calls ++ c } ∧ s'.2.2 = s.2.2 + c.length ∧
      c.length ≤ l.length := by
  induction l generalizing s with
  | nil =>
    injection h with h
    subst h
    exact ⟨[], by simp, rfl, by simp⟩
  | cons i l ih =>
    rw [List.foldlM_cons] at h
    obtain ⟨s1, h1, h⟩ := Out.bind_eq_ok.1 h
    obtain ⟨c, e1, e2, e3⟩ := reevalOne_frame h1
    obtain ⟨c', e1', e2', e3'⟩ := ih h
    refine ⟨c ++ c', by rw [e1', e1]; simp, by rw [e2', e2]; simp; omega, ?_⟩
    simp only [List.length_append, List.length_cons]
    split_ifs at e3 <;> omega

theorem performUh_frame {env : Env n} {s s' : Strat n} {cols phen : List (Vec n)} {nf nf' : ℕ}
    (h : s.performUh env cols phen nf = .ok (s', nf')) :
    ∃ c nu nzuh lr cu, s' = { s with
      calls := s.calls ++ c, nu := nu, nzuh := nzuh
      sol := { s.sol with lambdaReev := lr, candsUh := cu } } ∧ nf' = nf + c.length ∧
      c.length ≤ cols.length := by
  unfold performUh at h
  simp only at h
  split_ifs at h with h0
  all_goals
    obtain ⟨⟨s2, l, k⟩, h1, h⟩ := Out.bind_eq_ok.1 h
    injection h with h; injection h with h2 h3
    obtain ⟨c, e1, e2, e3⟩ := reevalFold_frame _ h1
    simp only at e1 e2
    refine ⟨c, s.nu + 1, s.nzuh + lambdaReevOf s.p (env.u s.nu), lambdaReevOf s.p (env.u s.nu), l, ?_, ?_,
      by simpa using e3⟩
    · rw [← h2, e1]
    · rw [← h3]; exact e2

theorem reinject_frame {s s' : Strat n} {k : ℕ} (h : s.reinject k = .ok s') :
    s' = s ∨ ∃ c, s.elitistRef = some c ∧ s.elitismOn = true ∧
      s' = { s with sol := { s.sol with cands := s.sol.cands.set 1 c } } := by
  unfold reinject at h
  by_cases he : s.elitismOn = true
  · rw [if_pos he] at h
    by_cases h1 : s.sol.cands.length < k
    · rw [if_pos h1] at h; cases h
    · rw [if_neg h1] at h
      by_cases h2 : s.improvers k < k / 2
      · rw [if_pos h2] at h
        cases hr : s.elitistRef with
        | none => rw [hr] at h; cases h
        | some c =>
          rw [hr] at h
          simp only at h
          split_ifs at h
          injection h with h
          exact Or.inr ⟨c, rfl, he, h.symm⟩
      · rw [if_neg h2] at h
        injection h with h
        exact Or.inl h.symm
  · rw [if_neg he] at h
    injection h with h
    exact Or.inl h.symm

/-- What `eval` may change; the number of calls made and counted. -/
theorem eval_frame {env : Env n} {s s' : Strat n} {cols phen : List (Vec n)}
    (h : s.eval env cols phen = .ok s') :
    ∃ c nu nzuh lr cu cs, s' = { s with
      calls := s.calls ++ c, nu := nu, nzuh := nzuh, nevals := s.nevals + c.length
      sol := { s.sol with
        lambdaReev := lr, candsUh := cu, cands := cs, nevals := s.sol.nevals + c.length } } ∧
      cs.length = s.sol.cands.length ∧ cols.length ≤ c.length ∧ c.length ≤ 2 * cols.length := by
  unfold eval at h
  obtain ⟨s1, h1, h⟩ := Out.bind_eq_ok.1 h
  obtain ⟨⟨s2, nf⟩, h2, h⟩ := Out.bind_eq_ok.1 h
  obtain ⟨s3, h3, h⟩ := Out.bind_eq_ok.1 h
  injection h with h
  obtain ⟨c, cs, l1, l2, e1⟩ := evalFold_frame _ h1
  rw [order_length] at l1
  have e2 : ∃ c' nu nzuh lr cu, s2 = { s1 with
      calls := s1.calls ++ c', nu := nu, nzuh := nzuh
      sol := { s1.sol with lambdaReev := lr, candsUh := cu } } ∧ nf = cols.length + c'.length ∧
      c'.length ≤ cols.length := by
    split_ifs at h2
    · exact performUh_frame h2
    · injection h2 with h2; injection h2 with h4 h5
      subst h4; subst h5
      exact ⟨[], s1.nu, s1.nzuh, s1.sol.lambdaReev, s1.sol.candsUh, by simp, rfl, by simp⟩
  obtain ⟨c', nu, nzuh, lr, cu, e2, hnf, hc'⟩ := e2
  have e3 : ∃ cs', s3 = { s2 with sol := { s2.sol with cands := cs' } } ∧
      cs'.length = s2.sol.cands.length := by
    rcases reinject_frame h3 with rfl | ⟨c0, _, _, rfl⟩
    · exact ⟨_, rfl, rfl⟩
    · exact ⟨_, rfl, by simp⟩
  obtain ⟨cs', e3, l3⟩ := e3
  refine ⟨c ++ c', nu, nzuh, lr, cu, cs', ?_, ?_, ?_, ?_⟩
  · rw [← h, e3, e2, e1, hnf]
    simp [updateFevals, l1]
  · rw [l3, e2, e1]; exact l2
  · simp; omega
  · simp; omega

/-! ### tell -/

theorem uncertaintyHandling_frame {env : Env n} {s s' : Strat n}
    (h : s.uncertaintyHandling env = .ok s') :
    ∃ cu su cs, s' = { s with sol := { s.sol with candsUh := cu, suh := su, cands := cs } } := by
  unfold uncertaintyHandling at h
  obtain ⟨l1, _, h⟩ := Out.bind_eq_ok.1 h
  obtain ⟨l2, _, h⟩ := Out.bind_eq_ok.1 h
  simp only at h
  split_ifs at h
  obtain ⟨t, _, h⟩ := Out.bind_eq_ok.1 h
  obtain ⟨l4, _, h⟩ := Out.bind_eq_ok.1 h
  obtain ⟨cs, _, h⟩ := Out.bind_eq_ok.1 h
  injection h with h
  subst h
  exact ⟨_, _, _, rfl⟩

theorem rank_frame {env : Env n} {s s' : Strat n} (h : s.rank env = .ok s') :
    ∃ cu su cs, s' = { s with sol := { s.sol with candsUh := cu, suh := su, cands := cs } } := by
  unfold rank at h
  split_ifs at h
  · exact uncertaintyHandling_frame h
  · obtain ⟨sol, h1, h⟩ := Out.bind_eq_ok.1 h
    unfold Sol.sortCandidates at h1
    obtain ⟨cs, _, h1⟩ := Out.bind_eq_ok.1 h1
    injection h with h
    injection h1 with h1
    subst h; subst h1
    exact ⟨_, _, _, rfl⟩

theorem tpaUpdate_frame {s s' : Strat n} (h : s.tpaUpdate = .ok s') :
    ∃ t, s' = { s with sol := { s.sol with tpaS := t } } := by
  unfold tpaUpdate at h
  split_ifs at h
  injection h with h
  subst h
  exact ⟨_, rfl⟩

end Strat

theorem covarianceUpdate_frame {eig : EigSolver n} {k : CovKind} {p : Params n} {es : Es n} {s s' : Sol n}
    (h : covarianceUpdate eig k p es s = .ok s') :
    ∃ csq hc sc ps hs pc cov sep v sg xp xm, s' = { s with
      csqinv := csq, hasCsq := hc, sepcsqinv := sc, psigma := ps, hsig := hs, pc := pc, cov := cov
      sepcov := sep, v := v, sigma := sg, xmeanPrev := xp, xmean := xm } := by
  unfold covarianceUpdate at h
  cases k with
  | plain =>
    simp only at h
    split_ifs at h with hs
    · obtain ⟨_, _, csq, hb, _, _, rfl⟩ := covUpdateSep_ok h
      exact ⟨_, _, _, _, _, _, _, _, _, _, _, _, rfl⟩
    · obtain ⟨_, _, csq, hb, _, _, rfl⟩ := covUpdateFull_ok h
      exact ⟨_, _, _, _, _, _, _, _, _, _, _, _, rfl⟩
  | active =>
    simp only at h
    split_ifs at h with hs
    · obtain ⟨_, _, _, _, csq, hb, cm, _, _, _, rfl⟩ := acovUpdateSep_ok h
      exact ⟨_, _, _, _, _, _, _, _, _, _, _, _, rfl⟩
    · obtain ⟨_, _, _, _, csq, hb, cm, _, _, _, rfl⟩ := acovUpdateFull_ok h
      exact ⟨_, _, _, _, _, _, _, _, _, _, _, _, rfl⟩
  | vd =>
    obtain ⟨_, _, _, _, _, hb, g, _, _, rfl⟩ := vdUpdate_ok h
    exact ⟨_, _, _, _, _, _, _, _, _, _, _, _, rfl⟩

theorem Strat.tellFinish_frame {s s' : Strat n} (h : s.tellFinish = .ok s') :
    ∃ sg mx mn lv le, s' = { s with sol := { s.sol with
      sigma := sg, maxEigenv := mx, minEigenv := mn, leigenvalues := lv, leigenvectors := le
      hasLeig := true } } := by
  unfold tellFinish at h
  simp only at h
  split_ifs at h
  all_goals first
    | (cases he : s.es.eig with
      | none => rw [he] at h; cases h
      | some e =>
        rw [he] at h
        injection h with h
        exact ⟨_, _, _, _, _, h.symm⟩)
    | (injection h with h
       exact ⟨_, _, _, _, _, h.symm⟩)

end Libcmaes
