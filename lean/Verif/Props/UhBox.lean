import Verif.Props.Uh
import Verif.Props.Init

/-!
# C38 with uncertainty handling
-/

namespace Libcmaes

open Spec

variable {n : ℕ}

/-- **C38**, where the calls of a generation with uncertainty handling are: one at the phenotype of each candidate, then at least two
at the phenotypes of the first candidates, moved by `1e-7` times the step size times a normal vector.  The bounds do not enter. -/
theorem C38_uh (env : Env n) (s s' : Strat n) (cols phen : List (Vec n)) (hp : Configured s.p)
    (huh : s.p.uh = true) (hc : s.sol.cands.length = s.p.lambda) (hl : cols.length = s.p.lambda)
    (hl' : phen.length = s.p.lambda) (h : s.eval env cols phen = .ok s') :
    ∃ c d, s'.calls = s.calls ++ c ++ d ∧ (c.map Prod.fst).Perm phen ∧ 2 ≤ d.length ∧ d.length ≤ phen.length ∧
      d.map Prod.fst = (List.range d.length).map fun r => phen.getD r 0 + (1e-7 * s.sol.sigma) • env.zuh (s.nzuh + r) := by
  obtain ⟨a1, a2, -⟩ := C41_number env s.p s.nu hp
  have hne : phen ≠ [] := by intro h; rw [h] at hl'; simp at hl'; omega
  rw [eval_uh_eq huh (by omega) (fun _ => by omega) (by omega)] at h
  obtain ⟨s3, h3, h⟩ := Out.bind_eq_ok.1 h
  injection h with h
  refine ⟨loopCalls env.f (colY cols phen) s.calls.length (s.order env cols.length),
    (List.range (Strat.lambdaReevOf s.p (env.u s.nu))).map fun r =>
            (s.uhPoint env cols phen r,
              env.f ((s.evaluated env cols phen).calls.length + r) (s.uhPoint env cols phen r)), ?_, ?_, ?_, ?_, ?_⟩
  · rw [← h]
    show s3.calls = _
    rcases Strat.reinject_frame h3 with h | ⟨_, _, _, h⟩ <;> rw [h] <;> rfl
  · rw [loopCalls_fst]
    refine ((Strat.order_perm env s cols.length).map _).trans ?_
    have : (List.range cols.length).map (colY cols phen) = phen := by
      apply List.ext_getElem
      · simp; omega
      · intro i i1 i2
        simp [colY, colX, hne, List.getD_eq_getElem?_getD, i2]
    rw [this]
  · simpa using a1
  · simpa using by omega
  · simp [Strat.uhPoint, colY, colX, hne, Function.comp_def]

/-- **C38**, how far outside: when the transform is sound for the box, no call of a generation with uncertainty handling is further
outside, in coordinate `i`, than `1e-7` times the step size times the largest of the normal numbers drawn. -/
theorem C38_uh_near (env : Env n) (s s' : Strat n) (cols phen : List (Vec n)) (lb ub : Vec n) (b : ℝ) (hp : Configured s.p)
    (huh : s.p.uh = true) (hc : s.sol.cands.length = s.p.lambda) (hl : cols.length = s.p.lambda)
    (hs : 0 < s.sol.sigma) (hg : SoundBoxTransform (List.ofFn lb) (List.ofFn ub) s.p.gp)
    (hph : s.phenoCols cols = .ok phen) (hb : ∀ r < s.p.lambda, ∀ i, |env.zuh (s.nzuh + r) i| ≤ b)
    (h : s.eval env cols phen = .ok s') :
    ∃ d, s'.calls = s.calls ++ d ∧
      ∀ q ∈ d, ∀ i, lb i - 1e-7 * s.sol.sigma * b ≤ q.1 i ∧ q.1 i ≤ ub i + 1e-7 * s.sol.sigma * b := by
  have hm := hph
  unfold Strat.phenoCols at hm
  have hl' : phen.length = s.p.lambda := (Out.mapM_length hm).symm.trans hl
  have hin : ∀ y ∈ phen, ∀ i, lb i ≤ y i ∧ y i ≤ ub i := by
    intro y hy
    obtain ⟨x, -, hx⟩ := Out.mapM_mem hm hy
    exact phenoV_inBox hg hx
  obtain ⟨c, d, h1, h2, h3, h4, h5⟩ := C38_uh env s s' cols phen hp huh hc hl hl' h
  have hlam : 2 ≤ s.p.lambda := hp.good.1.lambda
  refine ⟨c ++ d, by rw [h1, List.append_assoc], fun q hq i => ?_⟩
  have hσ : 0 < 1e-7 * s.sol.sigma := by positivity
  rcases List.mem_append.1 hq with hq | hq
  · have : 0 ≤ b := (abs_nonneg _).trans (hb 0 (by omega) i)
    have hb0 := mul_nonneg hσ.le this
    have := hin q.1 (h2.mem_iff.1 (List.mem_map_of_mem hq)) i
    constructor <;> linarith
  · have : q.1 ∈ d.map Prod.fst := List.mem_map_of_mem hq
    rw [h5, List.mem_map] at this
    obtain ⟨r, hr, e⟩ := this
    have hr : r < phen.length := by have := List.mem_range.1 hr; omega
    have hy := hin (phen.getD r 0) (by
      rw [List.getD_eq_getElem?_getD, List.getElem?_eq_getElem hr]; exact List.getElem_mem hr) i
    have hz := mul_le_mul_of_nonneg_left (hb r (by omega) i) hσ.le
    rw [← abs_of_pos hσ, ← abs_mul, abs_of_pos hσ, abs_le] at hz
    rw [← e]
    show _ ≤ phen.getD r 0 i + 1e-7 * s.sol.sigma * env.zuh (s.nzuh + r) i ∧ phen.getD r 0 i + 1e-7 * s.sol.sigma * env.zuh (s.nzuh + r) i ≤ _
    constructor <;> linarith [hz.1, hz.2]

/-- **C38 fails with uncertainty handling**: at any time of any run, a normal number that is large enough takes the first of the
repeated evaluations out of the box. -/
theorem C38_uh_out_false (env : Env n) (s s' : Strat n) (cols phen : List (Vec n)) (lb ub : Vec n) (i : Fin n) (hp : Configured s.p)
    (huh : s.p.uh = true) (hc : s.sol.cands.length = s.p.lambda) (hl : cols.length = s.p.lambda)
    (hg : SoundBoxTransform (List.ofFn lb) (List.ofFn ub) s.p.gp)
    (hph : s.phenoCols cols = .ok phen) (hz : ub i - lb i < 1e-7 * s.sol.sigma * env.zuh s.nzuh i)
    (h : s.eval env cols phen = .ok s') : ¬ CalledInBox lb ub s' := by
  have hm := hph
  unfold Strat.phenoCols at hm
  have hl' : phen.length = s.p.lambda := (Out.mapM_length hm).symm.trans hl
  obtain ⟨c, d, h1, h2, h3, h4, h5⟩ := C38_uh env s s' cols phen hp huh hc hl hl' h
  intro hin
  have : phen.getD 0 0 + (1e-7 * s.sol.sigma) • env.zuh (s.nzuh + 0) ∈ d.map Prod.fst := by
    rw [h5, List.mem_map]
    exact ⟨0, List.mem_range.2 (by omega), rfl⟩
  obtain ⟨q, hq, e⟩ := List.mem_map.1 this
  have hqi := hin q (by rw [h1]; exact List.mem_append_right _ hq) i
  have hy : phen.getD 0 0 ∈ phen := by
    have hr : 0 < phen.length := by omega
    rw [List.getD_eq_getElem?_getD, List.getElem?_eq_getElem hr]; exact List.getElem_mem hr
  obtain ⟨x, -, hx⟩ := Out.mapM_mem hm hy
  have hyi := phenoV_inBox hg hx i
  rw [e] at hqi
  have hqi' : phen.getD 0 0 i + 1e-7 * s.sol.sigma * env.zuh (s.nzuh + 0) i ≤ ub i := hqi.2
  rw [add_zero] at hqi'
  linarith [hyi.1]

/-- The hypotheses of the three theorems are met in the first generation of a default search of any dimension, in the box
`[-1,1]` in each coordinate, with any objective, and whatever was drawn elsewhere. -/
theorem C38_uh_false (hn : 1 ≤ n) (env : Env n) (i : Fin n) (hz : 1e8 < env.zuh 0 i) :
    ∃ p s pop s1 phen s2, Params.make (fun _ => 0) 0.5 (-1) 1 0 (sineBox n) = .ok p ∧
      SoundBoxTransform (List.ofFn fun _ : Fin n => (-1 : ℝ)) (List.ofFn fun _ : Fin n => (1 : ℝ)) p.gp ∧
      Strat.new env .plain { p with uh := true } = .ok s ∧ s.ask env = .ok (pop, s1) ∧ s1.phenoCols pop = .ok phen ∧
      s1.eval env pop phen = .ok s2 ∧ ¬ CalledInBox (fun _ => -1) (fun _ => 1) s2 := by
  obtain ⟨p, hp, _⟩ := C11_weights hn (fun _ => 0) 0.5 (-1) 1 0 (sineBox n)
  obtain ⟨hu, hgp, hfx, hsi, -, -⟩ := usual_default (by norm_num) hp (kind := .plain) (by decide)
  have hc : Configured p := .make hp
  have hc' : Configured { p with uh := true } := .other hc ⟨rfl, rfl, rfl, rfl, rfl, rfl, rfl, rfl, rfl, rfl,
    rfl, rfl, rfl, rfl, rfl, rfl, rfl⟩
  obtain ⟨s, hs⟩ := new_unscaled (env := env) (kind := .plain) (p := { p with uh := true })
    (by show p.gp.scale = _; rw [hgp]; rfl) hc'.good.1
  obtain ⟨h1, h2, h3, h4, h5, h6, h7, h8, h9, h10, -⟩ := Strat.new_ok hs
  have hg : SoundBoxTransform (List.ofFn fun _ : Fin n => (-1 : ℝ)) (List.ofFn fun _ : Fin n => (1 : ℝ)) p.gp := by
    rw [hgp]; exact (C38_bounds (n := n) (fun _ => -1) (fun _ => 1) (some sineCustom) (by norm_num)).1
  have hsg : s.sol.sigma = 0.5 := by
    rw [(C18_initial_state env .plain _ s (by show (p.fixedP.map _).Nodup; rw [hfx]; simp) hs).2.1
      (by show 0 < p.sigmaInit; rw [hsi]; norm_num)]
    exact hsi
  obtain ⟨pop, s1, hask, hcalls, -⟩ := Strat.ask_total (env := env)
    (askLive_new hc' hu.vd hu.grad hu.tpa hs)
  obtain ⟨⟨es, ei, ue, c, nz, x1, x2, p1, p2, e1⟩, hpl⟩ := Strat.ask_frame hask
  have ep : s1.p = { p with uh := true, sigmaInit := s.sol.sigma } := by rw [e1]; exact h4
  have hl : pop.length = s1.p.lambda := by rw [hpl, h4, ep]
  have hcands : s1.sol.cands.length = s1.p.lambda := by rw [ep, e1]; show s.sol.cands.length = _; rw [h6.cands]
  have hc1 : Configured s1.p := by
    rw [ep]
    exact .other hc ⟨rfl, rfl, rfl, rfl, rfl, rfl, rfl, rfl, rfl, rfl, rfl, rfl, rfl, rfl, rfl, rfl, rfl⟩
  have hgp1 : s1.p.gp = sineBox n := by rw [ep]; exact hgp
  obtain ⟨phen, hph⟩ : ∃ phen, s1.phenoCols pop = .ok phen := by
    unfold Strat.phenoCols
    rw [hgp1]
    exact Out.mapM_ok_of fun x _ => phenoV_sineBox x
  have hl' : phen.length = s1.p.lambda := by
    have := hph
    unfold Strat.phenoCols at this
    exact (Out.mapM_length this).symm.trans hl
  obtain ⟨a1, a2, -⟩ := C41_number env s1.p s1.nu hc1
  have hev : ∃ s2, s1.eval env pop phen = .ok s2 := by
    rw [eval_uh_eq (by rw [ep]) (by omega) (fun _ => by omega) (by omega), Strat.reinject, if_neg, Out.ok_bind]
    · exact ⟨_, rfl⟩
    · have : s1.niter = 0 := by rw [e1]; exact h7
      simp [Strat.elitismOn, Strat.evaluated, this]
  obtain ⟨s2, hev⟩ := hev
  have hnz : s1.nzuh = 0 := by rw [e1]; unfold Strat.new at hs; obtain ⟨q, -, hq⟩ := Out.bind_eq_ok.1 hs; injection hq with hq; rw [← hq]
  have hsg1 : s1.sol.sigma = 0.5 := by rw [e1]; exact hsg
  refine ⟨p, s, pop, s1, phen, s2, hp, hg, hs, hask, hph, hev, ?_⟩
  refine C38_uh_out_false env s1 s2 pop phen _ _ i hc1 (by rw [ep]) hcands hl (by rw [ep]; exact hg) hph ?_ hev
  rw [hsg1, hnz]
  norm_num
  linarith

end Libcmaes
