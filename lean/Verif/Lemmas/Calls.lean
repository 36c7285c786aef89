import Verif.Lemmas.Optimize
import Verif.Lemmas.Eval
import Verif.Lemmas.Init
import Verif.Lemmas.Good

/-! # Where the objective is called -/

namespace Libcmaes

open Spec

variable {n : ℕ}

/-- The point at which `gradf` calls the objective for coordinate `i`. -/
noncomputable def gradPoint (x : Vec n) (i : Fin n) (ub : ℝ) : Vec n :=
  Function.update x i (min (x i + Strat.gradEps x i) ub)

/-- `P` holds of all points reached by the transform and of the points of numerical gradients taken
there. -/
structure CallSet (P : Vec n → Prop) (env : Env n) (gp : GenoPheno) (grad : Bool) : Prop where
  pheno : ∀ x y, phenoV gp x = .ok y → P y
  grad : grad = true → env.gfunc = none → ∀ y i ub, P y → gp.uBound i.val = .ok ub → P (gradPoint y i ub)

/-- All calls so far satisfy `P`. -/
def CallsIn (P : Vec n → Prop) (s : Strat n) : Prop := ∀ q ∈ s.calls, P q.1

theorem CallsIn.append {P : Vec n → Prop} {s s' : Strat n} {c : List (Vec n × FVal)} (h : CallsIn P s)
    (e : s'.calls = s.calls ++ c) (hc : ∀ q ∈ c, P q.1) : CallsIn P s' := by
  intro q hq
  rw [e] at hq
  rcases List.mem_append.1 hq with h' | h'
  · exact h q h'
  · exact hc q h'

namespace Strat

theorem gradFold_calls {P : Vec n → Prop} {env : Env n} {x : Vec n} {fx : ℝ} {gp : GenoPheno}
    (hP : ∀ i ub, gp.uBound i.val = .ok ub → P (gradPoint x i ub)) (l : List ℕ) {s s' : Strat n × Vec n}
    (hgp : s.1.p.gp = gp) (h : l.foldlM (gradStep env x fx) s = .ok s') (hc : CallsIn P s.1) :
    CallsIn P s'.1 := by
  induction l generalizing s with
  | nil => injection h with h; exact h ▸ hc
  | cons i l ih =>
    rw [List.foldlM_cons] at h
    obtain ⟨s1, h1, h⟩ := Out.bind_eq_ok.1 h
    have hfr := gradStep_frame h1
    refine ih ?_ h ?_
    · obtain ⟨c, e⟩ := hfr; rw [e]; exact hgp
    · unfold gradStep at h1
      split_ifs at h1 with hi
      obtain ⟨ub, hub, h1⟩ := Out.bind_eq_ok.1 h1
      simp only [callF] at h1
      obtain ⟨fv, _, h1⟩ := Out.bind_eq_ok.1 h1
      injection h1 with h1
      subst h1
      refine hc.append rfl ?_
      intro q hq
      rw [List.mem_singleton] at hq
      subst hq
      exact hP ⟨i, hi⟩ ub (by rw [← hgp]; exact hub)

theorem gradf_calls {P : Vec n → Prop} {env : Env n} {s s' : Strat n} {x g : Vec n}
    (hx : P x) (hP : env.gfunc = none → ∀ i ub, s.p.gp.uBound i.val = .ok ub → P (gradPoint x i ub))
    (h : s.gradf env x = .ok (s', g)) (hc : CallsIn P s) : CallsIn P s' := by
  unfold gradf at h
  cases hg : env.gfunc with
  | some gf =>
    rw [hg] at h
    injection h with h; injection h with h1 h2
    exact h1 ▸ hc
  | none =>
    rw [hg] at h
    simp only [callF] at h
    obtain ⟨fx, _, h⟩ := Out.bind_eq_ok.1 h
    obtain ⟨⟨s2, g2⟩, h2, h⟩ := Out.bind_eq_ok.1 h
    injection h with h; injection h with h3 h4
    have := gradFold_calls (P := P) (hP hg) _ rfl h2 (hc.append rfl (by simpa using hx))
    rw [← h3]
    exact this

theorem ask_callsIn {P : Vec n → Prop} {env : Env n} {s s' : Strat n} {pop : List (Vec n)}
    (hP : CallSet P env s.p.gp s.p.withGradient) (h : s.ask env = .ok (pop, s')) (hc : CallsIn P s) :
    CallsIn P s' := by
  by_cases hg : s.p.withGradient = false
  · have := ask_calls h hg
    intro q hq; rw [this] at hq; exact hc q hq
  unfold ask at h
  obtain ⟨s1, h1, h⟩ := Out.bind_eq_ok.1 h
  obtain ⟨⟨pop1, s2⟩, h2, h⟩ := Out.bind_eq_ok.1 h
  obtain ⟨⟨pop2, s3⟩, h3, h⟩ := Out.bind_eq_ok.1 h
  obtain ⟨⟨pop3, s4⟩, h4, h⟩ := Out.bind_eq_ok.1 h
  obtain ⟨pop4, h5, h⟩ := Out.bind_eq_ok.1 h
  injection h with h; injection h with h6 h7
  subst h6; subst h7
  obtain ⟨es, ei, ue, e1⟩ := askPrepare_frame h1
  obtain ⟨e2, l2⟩ := askSample_frame h2
  obtain ⟨⟨nz, x1, x2, p1, p2, e4⟩, l4, _⟩ := askTpa_frame h4
  have hc2 : CallsIn P s2 := by
    intro q hq; rw [e2, e1] at hq; exact hc q hq
  have hp2 : s2.p = s.p := by rw [e2, e1]
  have hc3 : CallsIn P s3 := by
    unfold askGradient at h3
    rw [if_neg (by rw [hp2]; exact hg)] at h3
    obtain ⟨ph, hph, h3⟩ := Out.bind_eq_ok.1 h3
    obtain ⟨⟨t, g⟩, ht, h3⟩ := Out.bind_eq_ok.1 h3
    obtain ⟨gg, _, h3⟩ := Out.bind_eq_ok.1 h3
    have hpp := hP.pheno _ _ (by rw [← hp2]; exact hph)
    have hct := gradf_calls hpp (fun hn i ub hub => hP.grad (by simpa using hg) hn ph i ub hpp
      (by rw [← hp2]; exact hub)) ht hc2
    have : s3 = t := by
      simp only at h3
      split_ifs at h3
      · injection h3 with h3; injection h3 with _ h3; exact h3.symm
      · cases he : s2.es.eig with
        | none => rw [he] at h3; cases h3
        | some e =>
          rw [he] at h3
          simp only at h3
          split_ifs at h3
          injection h3 with h3; injection h3 with _ h3; exact h3.symm
      · injection h3 with h3; injection h3 with _ h3; exact h3.symm
    rw [this]; exact hct
  rw [e4]
  exact hc3

theorem eval_callsIn {P : Vec n → Prop} {env : Env n} {s s' : Strat n} {cols phen : List (Vec n)}
    (huh : s.p.uh = false) (hP : ∀ y ∈ phen, P y) (hne : phen = [] → cols = [])
    (h : s.eval env cols phen = .ok s') (hc : CallsIn P s) : CallsIn P s' := by
  obtain ⟨h1, h2⟩ := eval_bounds h
  obtain ⟨s3, h3, e⟩ := eval_ok huh h
  have e' : s'.calls = s.calls ++ loopCalls env.f (colY cols phen) s.calls.length (s.order env cols.length) := by
    rw [e]
    show s3.calls = _
    rcases reinject_frame h3 with h | ⟨_, _, _, h⟩ <;> rw [h] <;> rfl
  refine hc.append e' fun q hq => ?_
  obtain ⟨r, hr, j, e⟩ := loopCalls_mem hq
  have hr := mem_order.1 hr
  rw [e]
  have hp : phen ≠ [] := by
    intro h; rw [hne h] at hr; simp at hr
  have hl := h2 hp
  show P (colY cols phen r)
  unfold colY
  rw [if_neg (by simpa using hp)]
  unfold colX
  have hlt : r < phen.length := by omega
  rw [List.getD_eq_getElem?_getD, List.getElem?_eq_getElem hlt]
  exact hP _ (List.getElem_mem hlt)

theorem generation_callsIn {P : Vec n → Prop} {env : Env n} {s s' : Strat n} (huh : s.p.uh = false)
    (hP : CallSet P env s.p.gp s.p.withGradient) (h : s.generation env = .ok s') (hc : CallsIn P s) :
    CallsIn P s' := by
  unfold generation at h
  obtain ⟨⟨pop, s1⟩, ha, h⟩ := Out.bind_eq_ok.1 h
  obtain ⟨phen, hp, h⟩ := Out.bind_eq_ok.1 h
  obtain ⟨s2, he, h⟩ := Out.bind_eq_ok.1 h
  obtain ⟨s3, ht, h⟩ := Out.bind_eq_ok.1 h
  injection h with h
  obtain ⟨⟨es, ei, ue, c, nz, x1, x2, p1, p2, e1⟩, hpl⟩ := ask_frame ha
  have hp1 : s1.p = s.p := by rw [e1]
  have hc1 := ask_callsIn hP ha hc
  have hlen := Out.mapM_length hp
  have hc2 : CallsIn P s2 := by
    refine eval_callsIn (by rw [hp1]; exact huh) ?_ ?_ he hc1
    · intro y hy
      unfold phenoCols at hp
      obtain ⟨x, _, hx⟩ := Out.mapM_mem hp hy
      exact hP.pheno x y (by rw [← hp1]; exact hx)
    · intro h0
      rw [h0] at hlen
      exact List.eq_nil_of_length_eq_zero (by simpa using hlen)
  obtain ⟨cs', cu', su, ts, sol3, hs, hb, csq, hc, sc, ps, hs', pc, cov, sep, v, sg, xp, xm, mx, mn, lv, le,
    e3⟩ := Strat.tell_frame ht
  intro q hq
  rw [← h, e3] at hq
  exact hc2 q hq

end Strat

/-- Invariant of whole runs. -/
structure RunIn (P : Vec n → Prop) (env : Env n) (gp : GenoPheno) (s : Strat n) : Prop where
  geno : s.p.gp = gp
  uh : s.p.uh = false
  set : CallSet P env gp (s.p.withGradient || s.p.withEdm)
  calls : CallsIn P s

theorem RunIn.p {P : Vec n → Prop} {env : Env n} {gp : GenoPheno} {s s' : Strat n} (h : RunIn P env gp s)
    (h1 : s'.p.gp = s.p.gp) (h2 : s'.p.uh = s.p.uh) (h3 : s'.p.withGradient = s.p.withGradient)
    (h4 : s'.p.withEdm = s.p.withEdm) (hc : CallsIn P s') : RunIn P env gp s' :=
  ⟨h1.trans h.geno, h2.trans h.uh, by rw [h3, h4]; exact h.set, hc⟩

theorem RunIn.optimize {P : Vec n → Prop} {env : Env n} {gp : GenoPheno} (k : ℕ) {s s' : Strat n}
    (h : RunIn P env gp s) (ho : s.optimize env k = .ok (some s')) : RunIn P env gp s' := by
  refine Strat.optimize_induct_gen ?_ ?_ ?_ ?_ ?_ k h ho
  · intro s s' hi h
    rcases Strat.evalInitial_frame h with e | ⟨y, v, hy, _, e⟩
    · rw [e]; exact hi
    · refine hi.p (by rw [e]) (by rw [e]) (by rw [e]) (by rw [e]) (hi.calls.append (c := [(y, v)]) (by rw [e]) ?_)
      intro q hq
      rw [List.mem_singleton] at hq
      rw [hq]; exact hi.set.pheno _ _ (by rw [← hi.geno]; exact hy)
  · intro s b s' hi h
    obtain ⟨k, r, e⟩ := Strat.stop_frame h
    rw [e]; exact ⟨hi.geno, hi.uh, hi.set, hi.calls⟩
  · intro s s' hi h
    obtain ⟨tr, hr⟩ := Strat.generation_run h
    have hp := (run_p hr).1
    refine hi.p (by rw [hp]) (by rw [hp]) (by rw [hp]) (by rw [hp])
      (Strat.generation_callsIn hi.uh ⟨?_, ?_⟩ h hi.calls)
    · rw [hi.geno]; exact hi.set.pheno
    · intro hg; rw [hi.geno]; exact hi.set.grad (by simp [hg])
  · intro s s' hi hw h
    have h' := h
    unfold Strat.edm at h
    simp only at h
    obtain ⟨c, ed, e⟩ := Strat.edm_frame h'
    refine hi.p (by rw [e]) (by rw [e]) (by rw [e]) (by rw [e]) ?_
    split_ifs at h
    all_goals
      obtain ⟨ph, hph, h⟩ := Out.bind_eq_ok.1 h
      obtain ⟨⟨s1, g⟩, h1, h⟩ := Out.bind_eq_ok.1 h
      obtain ⟨gg, _, h⟩ := Out.bind_eq_ok.1 h
      simp only at h
    all_goals
      obtain ⟨nrm, _, h⟩ := Out.bind_eq_ok.1 h
      injection h with h
      have hpp := hi.set.pheno _ _ (by rw [← hi.geno]; exact hph)
      have := Strat.gradf_calls hpp (fun hn i ub hub => hi.set.grad (by simp [hw]) hn ph i ub hpp
        (by rw [← hi.geno]; exact hub)) h1 hi.calls
      rw [← h]
      exact this
  · intro s s' hi h
    obtain ⟨b, p, sol, hb, hm, e⟩ := Strat.elitistRestart_ok h
    have hp := (Sol.make_eq_ok hm).2.2.2.2.2.1
    rw [e]
    exact hi.p (by rw [hp]) (by rw [hp]) (by rw [hp]) (by rw [hp]) hi.calls

theorem RunIn.reset {P : Vec n → Prop} {env : Env n} {gp : GenoPheno} {s s' : Strat n}
    (hi : RunIn P env gp s) (h : s.resetSearchState env = .ok s') : RunIn P env gp s' := by
  obtain ⟨p, sol, hm, e⟩ := Strat.resetSearchState_ok h
  have hp := (Sol.make_eq_ok hm).2.2.2.2.2.1
  rw [e]
  exact hi.p (by rw [hp]) (by rw [hp]) (by rw [hp]) (by rw [hp]) hi.calls

theorem RunIn.inc {P : Vec n → Prop} {env : Env n} {gp : GenoPheno} {s s' : Strat n}
    (hi : RunIn P env gp s) (h : s.lambdaInc = .ok s') : RunIn P env gp s' := by
  obtain ⟨p, hm, e⟩ := Strat.lambdaInc_ok h
  obtain ⟨mu, w, muw, cs, cc, c1, cm, ds, fs, fc, ch, lv, rl, al, ep⟩ := initializeParameters_frame hm
  rw [e]
  exact hi.p (by rw [ep]) (by rw [ep]) (by rw [ep]) (by rw [ep]) hi.calls

theorem RunIn.param {P : Vec n → Prop} {env : Env n} {gp : GenoPheno} {s : Strat n} {q : Params n}
    (hi : RunIn P env gp s) (h : Bipop.ParamStep s.p q) : RunIn P env gp { s with p := q } := by
  obtain ⟨_, _, _, _, _, _, _, _, _, _, _, _, _, _, _, _, _, e⟩ := h.frame
  exact hi.p (by rw [e]) (by rw [e]) (by rw [e]) (by rw [e]) hi.calls

theorem RunIn.ipop {P : Vec n → Prop} {env : Env n} {gp : GenoPheno} {fuel : ℕ} {s s' : Strat n}
    {b : Option (Sol n)} (hi : RunIn P env gp s) (h : s.ipopOptimize env fuel = .ok (some (s', b))) :
    RunIn P env gp s' :=
  Strat.ipopLoop_induct (fun _ _ i h => i.optimize fuel h) (fun _ _ i h => i.inc h)
    (fun _ _ i h => i.reset h) _ hi h

theorem RunIn.bipop {P : Vec n → Prop} {env : Env n} {gp : GenoPheno} {fuel : ℕ} {b : Bipop n}
    {l : Bipop.Loop n} (hi : RunIn P env gp b.s) (h : b.optimize env fuel = .ok (some l)) :
    RunIn P env gp l.b.s :=
  Bipop.optimize_induct (fun _ _ i h => i.optimize fuel h) (fun _ _ i h => i.param h)
    (fun _ _ i h => i.reset h) hi h

theorem RunIn.new {P : Vec n → Prop} {env : Env n} {kind : CovKind} {p : Params n} {s : Strat n}
    (huh : p.uh = false) (hs : CallSet P env p.gp (p.withGradient || p.withEdm))
    (h : Strat.new env kind p = .ok s) : RunIn P env p.gp s := by
  obtain ⟨_, _, _, hp, _, _, _, _, hc, _⟩ := Strat.new_ok h
  refine ⟨by rw [hp], by rw [hp]; exact huh, by rw [hp]; exact hs, ?_⟩
  intro q hq; rw [hc] at hq; cases hq

theorem RunIn.bipopNew {P : Vec n → Prop} {env : Env n} {kind : CovKind} {p : Params n} {b : Bipop n}
    (huh : p.uh = false) (hs : CallSet P env p.gp (p.withGradient || p.withEdm))
    (h : Bipop.new env kind p = .ok b) : RunIn P env p.gp b.s := by
  obtain ⟨s, h1, h2, _⟩ := Bipop.new_ok h
  exact ((RunIn.new huh hs h1).param .pop).reset h2

end Libcmaes
