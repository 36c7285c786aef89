import Verif.Props.Uh
import Verif.Lemmas.UhLevel

/-!
# C90: the uncertainty level and the step size under uncertainty handling
-/

namespace Libcmaes

open Spec Matrix

variable {n : ℕ}

/-- **C90**: an evaluation under uncertainty handling and the `tell` after it.  The candidates `s2.sol.candsUh`
carry their values and, below the index `lambda_reev`, the values of the re-evaluation; both are distinct numbers.
Then the uncertainty level is the mean, over the re-evaluated candidates, of twice the change of rank minus the
limits at the two ranks; and the step size is enlarged by the factor `1 + 2 / (dim + 10)` exactly if the level
is positive. -/
theorem C90_level (env : Env n) (s s2 s3 : Strat n) (cols phen : List (Vec n)) (hp : Configured s.p)
    (huh : s.p.uh = true) (htpa : s.p.tpa < 2) (hc : s.sol.cands.length = s.p.lambda)
    (hl : cols.length = s.p.lambda) (hl' : phen.length = s.p.lambda) (hel : s.elitismOn = false)
    (h : s.eval env cols phen = .ok s2) (h1 : DistinctBy RankedCand.fvalue s2.sol.candsUh)
    (h2 : DistinctBy RankedCand.fvalueMut s2.sol.candsUh) (h3 : s2.tell env = .ok s3) :
    ∃ lim : ℤ → ℝ, (∀ R, IsRankLimit s.p.lambda R (lim R)) ∧
      s3.sol.suh = uncertaintyLevel lim s2.sol.lambdaReev s2.sol.candsUh ∧
      s3.sol.sigma = s2.sol.sigma * Real.exp (s.p.csigma / s.p.dsigma * (vnorm s3.sol.psigma / s.p.chi - 1)) *
        if 0 < s3.sol.suh then 1 + 2 / ((n : ℝ) + 10) else 1 := by
  obtain ⟨e1, -, -, -⟩ := eval_uh_ok hp huh hc hl hl' hel h
  obtain ⟨lim, hlim⟩ := limit_exists (lambda := s.p.lambda) (by have := hp.good.1.lambda; omega)
  obtain ⟨t, ht, hs, hsig⟩ := tell_uh (by rw [e1]; exact huh) (by rw [e1]; exact htpa) h3
  refine ⟨lim, hlim, ?_, ?_⟩
  · rw [hs]
    exact uncertaintyHandling_level h1 h2 ht (by rw [e1]; exact hlim)
  · rw [hsig, e1, hp.alphathuh]

/-- **C90**, no noise: if no re-evaluated candidate moves by more than one rank, the level is not positive and the
step size is not enlarged. -/
theorem C90_noiseless (env : Env n) (s s2 s3 : Strat n) (cols phen : List (Vec n)) (hp : Configured s.p)
    (huh : s.p.uh = true) (htpa : s.p.tpa < 2) (hc : s.sol.cands.length = s.p.lambda)
    (hl : cols.length = s.p.lambda) (hl' : phen.length = s.p.lambda) (hel : s.elitismOn = false)
    (h : s.eval env cols phen = .ok s2) (h1 : DistinctBy RankedCand.fvalue s2.sol.candsUh)
    (h2 : DistinctBy RankedCand.fvalueMut s2.sol.candsUh) (h3 : s2.tell env = .ok s3)
    (hr : ∀ c ∈ s2.sol.candsUh, c.idx < s2.sol.lambdaReev →
      rankBy RankedCand.fvalue s2.sol.candsUh c ≤ rankBy RankedCand.fvalueMut s2.sol.candsUh c + 1 ∧
      rankBy RankedCand.fvalueMut s2.sol.candsUh c ≤ rankBy RankedCand.fvalue s2.sol.candsUh c + 1) :
    s3.sol.suh ≤ 0 ∧
      s3.sol.sigma = s2.sol.sigma * Real.exp (s.p.csigma / s.p.dsigma * (vnorm s3.sol.psigma / s.p.chi - 1)) := by
  obtain ⟨lim, hlim, hs, hsig⟩ := C90_level env s s2 s3 cols phen hp huh htpa hc hl hl' hel h h1 h2 h3
  have hle : s3.sol.suh ≤ 0 := by
    rw [hs]
    exact level_nonpos fun c hc hi => excess_nonpos hlim (hr c hc hi).1 (hr c hc hi).2
  refine ⟨hle, ?_⟩
  rw [hsig, if_neg (not_lt.2 hle), mul_one]

/-- **C90**, much noise: if every re-evaluated candidate moves by at least `(2 λ - 1) / 10 + 3` ranks, the level is
positive and the step size is enlarged. -/
theorem C90_noisy (env : Env n) (s s2 s3 : Strat n) (cols phen : List (Vec n)) (hp : Configured s.p)
    (huh : s.p.uh = true) (htpa : s.p.tpa < 2) (hc : s.sol.cands.length = s.p.lambda)
    (hl : cols.length = s.p.lambda) (hl' : phen.length = s.p.lambda) (hel : s.elitismOn = false)
    (h : s.eval env cols phen = .ok s2) (h1 : DistinctBy RankedCand.fvalue s2.sol.candsUh)
    (h2 : DistinctBy RankedCand.fvalueMut s2.sol.candsUh) (h3 : s2.tell env = .ok s3)
    (hr : ∀ c ∈ s2.sol.candsUh, c.idx < s2.sol.lambdaReev →
      rankBy RankedCand.fvalue s2.sol.candsUh c + (2 * s.p.lambda - 1) / 10 + 3 ≤
        rankBy RankedCand.fvalueMut s2.sol.candsUh c ∨
      rankBy RankedCand.fvalueMut s2.sol.candsUh c + (2 * s.p.lambda - 1) / 10 + 3 ≤
        rankBy RankedCand.fvalue s2.sol.candsUh c) :
    0 < s3.sol.suh ∧
      s3.sol.sigma = s2.sol.sigma * Real.exp (s.p.csigma / s.p.dsigma * (vnorm s3.sol.psigma / s.p.chi - 1)) *
        (1 + 2 / ((n : ℝ) + 10)) := by
  obtain ⟨lim, hlim, hs, hsig⟩ := C90_level env s s2 s3 cols phen hp huh htpa hc hl hl' hel h h1 h2 h3
  obtain ⟨-, -, e3, e4⟩ := eval_uh_ok hp huh hc hl hl' hel h
  obtain ⟨a1, a2, -⟩ := C41_number env s.p s.nu hp
  have hlen : s2.sol.candsUh.length = s.p.lambda := by rw [e4, List.length_map, List.length_range, hl]
  have hpos : 0 < s3.sol.suh := by
    rw [hs]
    refine level_pos ?_ fun c hc hi => excess_pos hlim (hlen ▸ rankBy_lt hc) (hlen ▸ rankBy_lt hc) (hr c hc hi)
    rw [e4, e3]
    refine ⟨_, List.mem_map.2 ⟨0, List.mem_range.2 ?_, rfl⟩, ?_⟩
    · rw [hl]; have := hp.good.1.lambda; omega
    · show 0 < _
      omega
  refine ⟨hpos, ?_⟩
  rw [hsig, if_pos hpos]

/-- The hypotheses of `C90_noiseless` are met: the run of `C42_consistent`. -/
example (env : Env 1) (hf : env.f = fun k _ => fin (calmValues k)) :
    ∃ p, Params.make (fun _ : Fin 1 => 0) 1 (-1) 1 0 GenoPheno.plain = .ok p ∧
      ∃ s pop s1 phen s2 s3, Strat.new env .plain { p with uh := true } = .ok s ∧ s.ask env = .ok (pop, s1) ∧
        s1.phenoCols pop = .ok phen ∧ s1.eval env pop phen = .ok s2 ∧ s2.tell env = .ok s3 ∧ s3.sol.suh ≤ 0 := by
  obtain ⟨p, hp, s, pop, s1, phen, s2, s3, h1, h2, h3, h4, h5, a1, a2, a3, a4, a5, a6, a7, a8, a9, -⟩ :=
    uh_first env calmValues hf (calm_rank env)
  have hu : s2.sol.candsUh = [⟨fin 0, fin 0, 0, 0, 0, 0⟩, ⟨fin 1, fin 1, 1, 0, 0, 0⟩,
      ⟨fin 2, fin 2, 2, 0, 0, 0⟩, ⟨fin 3, fin 3, 3, 0, 0, 0⟩] := by rw [a9]; simp [fourCands, calmValues]
  refine ⟨p, hp, s, pop, s1, phen, s2, s3, h1, h2, h3, h4, h5, ?_⟩
  refine (C90_noiseless env s1 s2 s3 pop phen a1 a2 a3 (by omega) (by omega) (by omega) a8 h4 ?_ ?_ h5 ?_).1
  · rw [hu]; constructor
    · simp [fin_isNum]
    · simp [fin_lt]
  · rw [hu]; constructor
    · simp [fin_isNum]
    · simp [fin_lt]
  · have e : ∀ c ∈ s2.sol.candsUh, c.fvalueMut = c.fvalue := by rw [hu]; simp
    intro c hc _
    have : rankBy RankedCand.fvalueMut s2.sol.candsUh c = rankBy RankedCand.fvalue s2.sol.candsUh c := by
      unfold rankBy
      apply List.countP_congr
      intro d hd
      rw [e c hc, e d hd]
    omega

/-- The values of a very noisy objective: the best and the worst candidate change places. -/
noncomputable def wildValues (k : ℕ) : ℝ := ([0, 3, 1, 2, 9, 0] : List ℝ).getD k 0

theorem wild_cands : fourCands wildValues = [⟨fin 0, fin 9, 0, 0, 0, 0⟩, ⟨fin 3, fin 0, 1, 0, 0, 0⟩,
    ⟨fin 1, fin 1, 2, 0, 0, 0⟩, ⟨fin 2, fin 2, 3, 0, 0, 0⟩] := by simp [fourCands, wildValues]

theorem wild_rank (env : Env 1) (s2 : Strat 1) (hc : Configured s2.p) (hcu : s2.sol.candsUh = fourCands wildValues)
    (hl : s2.sol.lambdaReev = 2) (hlen : s2.sol.cands.length = 4) :
    ∃ t, s2.uncertaintyHandling env = .ok t ∧ t.sol.cands.length = 4 := by
  have k1 : unstableSort env.usort (fun a b => FVal.lt a.fvalue b.fvalue) (fourCands wildValues) = .ok
      [⟨fin 0, fin 9, 0, 0, 0, 0⟩, ⟨fin 1, fin 1, 2, 0, 0, 0⟩, ⟨fin 2, fin 2, 3, 0, 0, 0⟩,
       ⟨fin 3, fin 0, 1, 0, 0, 0⟩] := by
    rw [wild_cands]
    apply unstableSort_unique env.usort RankedCand.fvalue
    · simp [fin_isNum]
    · exact List.Perm.cons _ (List.perm_append_comm (l₁ := [_, _]) (l₂ := [_]))
    · simp [fin_lt]
      norm_num
  have k2 : unstableSort env.usort (fun a b => FVal.lt a.fvalueMut b.fvalueMut)
      [⟨fin 0, fin 9, 0, 0, 0, 0⟩, ⟨fin 1, fin 1, 2, 1, 0, 0⟩, ⟨fin 2, fin 2, 3, 2, 0, 0⟩,
       ⟨fin 3, fin 0, 1, 3, 0, 0⟩] = .ok
      [⟨fin 3, fin 0, 1, 3, 0, 0⟩, ⟨fin 1, fin 1, 2, 1, 0, 0⟩, ⟨fin 2, fin 2, 3, 2, 0, 0⟩,
       ⟨fin 0, fin 9, 0, 0, 0, 0⟩] := by
    apply unstableSort_unique env.usort RankedCand.fvalueMut
    · simp [fin_isNum]
    · exact (List.perm_append_comm (l₁ := [_, _, _]) (l₂ := [_])).trans
        (List.Perm.cons _ (List.perm_append_comm (l₁ := [_]) (l₂ := [_, _])))
    · simp [fin_lt]
      norm_num
  have hl1 : 1 ≤ s2.p.lambda := by have := hc.good.1.lambda; omega
  obtain ⟨W, hW⟩ : ∃ W : List RankedCand, W = [⟨fin 3, fin 0, 1, 3, 0, -2⟩, ⟨fin 1, fin 1, 2, 1, 1, 0⟩,
    ⟨fin 2, fin 2, 3, 2, 2, 0⟩, ⟨fin 0, fin 9, 0, 0, 3, 2⟩] := ⟨_, rfl⟩
  have hlt : ∀ m : ℝ, ∀ a ∈ W, ∀ b ∈ W, (uhLess 2 m a b ↔ a.r1 + a.r2 < b.r1 + b.r2) := by
    intro m a ha b hb
    rw [hW] at ha hb
    simp only [List.mem_cons, List.not_mem_nil, or_false] at ha hb
    rcases ha with rfl | rfl | rfl | rfl <;> rcases hb with rfl | rfl | rfl | rfl <;>
      simp [uhLess, FVal.lt_irrefl]
  have hsort : ∀ m : ℝ, ∃ out, unstableSort env.usort (uhLess 2 m) W = .ok out := by
    intro m
    unfold unstableSort
    rw [if_pos]
    · exact ⟨_, rfl⟩
    · refine ⟨fun a ha => ?_, fun a ha b hb c hc h1 h2 => ?_, fun a ha b hb c hc h1 h2 h3 h4 => ?_⟩
      · rw [hlt m a ha a ha]; omega
      · rw [hlt m _ ha _ hb] at h1; rw [hlt m _ hb _ hc] at h2; rw [hlt m _ ha _ hc]; omega
      · rw [hlt m _ ha _ hb] at h1; rw [hlt m _ hb _ ha] at h2
        rw [hlt m _ hb _ hc] at h3; rw [hlt m _ hc _ hb] at h4
        rw [hlt m _ ha _ hc, hlt m _ hc _ ha]; omega
  unfold Strat.uncertaintyHandling
  rw [hcu, k1, Out.ok_bind]
  simp only [List.zipIdx_cons, List.zipIdx_nil, List.map_cons, List.map_nil, Nat.zero_add, Nat.reduceAdd]
  rw [k2, Out.ok_bind, hl]
  simp only [List.zipIdx_cons, List.zipIdx_nil, List.map_cons, List.map_nil, Nat.zero_add, Nat.reduceAdd]
  rw [if_neg (by norm_num)]
  have d1 : (if 2 ≤ 1 then (⟨fin 3, fin 0, 1, 3, 0, 0⟩ : RankedCand) else
      ⟨fin 3, fin 0, 1, 3, 0, ((0 : ℕ) : ℤ) - (3 : ℕ) - sgn (((0 : ℕ) : ℤ) - (3 : ℕ))⟩) =
      ⟨fin 3, fin 0, 1, 3, 0, -2⟩ := by simp [sgn]
  have d2 : (if 2 ≤ 2 then (⟨fin 1, fin 1, 2, 1, 1, 0⟩ : RankedCand) else
      ⟨fin 1, fin 1, 2, 1, 1, ((1 : ℕ) : ℤ) - (1 : ℕ) - sgn (((1 : ℕ) : ℤ) - (1 : ℕ))⟩) =
      ⟨fin 1, fin 1, 2, 1, 1, 0⟩ := by simp
  have d3 : (if 2 ≤ 3 then (⟨fin 2, fin 2, 3, 2, 2, 0⟩ : RankedCand) else
      ⟨fin 2, fin 2, 3, 2, 2, ((2 : ℕ) : ℤ) - (2 : ℕ) - sgn (((2 : ℕ) : ℤ) - (2 : ℕ))⟩) =
      ⟨fin 2, fin 2, 3, 2, 2, 0⟩ := by simp
  have d4 : (if 2 ≤ 0 then (⟨fin 0, fin 9, 0, 0, 3, 0⟩ : RankedCand) else
      ⟨fin 0, fin 9, 0, 0, 3, ((3 : ℕ) : ℤ) - (0 : ℕ) - sgn (((3 : ℕ) : ℤ) - (0 : ℕ))⟩) =
      ⟨fin 0, fin 9, 0, 0, 3, 2⟩ := by simp [sgn]
  rw [d1, d2, d3, d4, ← hW]
  obtain ⟨ts, hts⟩ := Out.mapM_ok_of fun c (_ : c ∈ W) => uhTerm_total hl1 2 c
  rw [hts, Out.ok_bind]
  obtain ⟨out, hout⟩ := hsort _
  rw [hout, Out.ok_bind]
  obtain ⟨-, hperm, -⟩ := unstableSort_ok hout
  obtain ⟨cs, hcs⟩ := Out.mapM_ok_of (f := fun c : RankedCand => at! s2.sol.cands c.idx) (l := out) fun c hc => by
    have hi : c.idx < s2.sol.cands.length := by
      have := hperm.mem_iff.1 hc
      rw [hW] at this
      simp only [List.mem_cons, List.not_mem_nil, or_false] at this
      rw [hlen]
      rcases this with rfl | rfl | rfl | rfl <;> simp
    exact ⟨_, at!_eq_ok.2 (List.getElem?_eq_getElem hi)⟩
  rw [hcs, Out.ok_bind]
  refine ⟨_, rfl, ?_⟩
  show cs.length = 4
  rw [← Out.mapM_length hcs, hperm.length_eq, hW]
  rfl

/-- The hypotheses of `C90_noisy` are met. -/
example (env : Env 1) (hf : env.f = fun k _ => fin (wildValues k)) :
    ∃ p, Params.make (fun _ : Fin 1 => 0) 1 (-1) 1 0 GenoPheno.plain = .ok p ∧
      ∃ s pop s1 phen s2 s3, Strat.new env .plain { p with uh := true } = .ok s ∧ s.ask env = .ok (pop, s1) ∧
        s1.phenoCols pop = .ok phen ∧ s1.eval env pop phen = .ok s2 ∧ s2.tell env = .ok s3 ∧ 0 < s3.sol.suh := by
  obtain ⟨p, hp, s, pop, s1, phen, s2, s3, h1, h2, h3, h4, h5, a1, a2, a3, a4, a5, a6, a7, a8, a9, a10⟩ :=
    uh_first env wildValues hf fun s2 h1 h2 h3 h4 _ => wild_rank env s2 h1 h2 h3 h4
  rw [wild_cands] at a9
  refine ⟨p, hp, s, pop, s1, phen, s2, s3, h1, h2, h3, h4, h5, ?_⟩
  refine (C90_noisy env s1 s2 s3 pop phen a1 a2 a3 (by omega) (by omega) (by omega) a8 h4 ?_ ?_ h5 ?_).1
  · rw [a9]; constructor
    · simp [fin_isNum]
    · simp [fin_lt]
  · rw [a9]; constructor
    · simp [fin_isNum]
    · simp [fin_lt]
  · rw [a9, a10, a4]
    intro c hc hi
    simp only [List.mem_cons, List.not_mem_nil, or_false] at hc
    rcases hc with rfl | rfl | rfl | rfl
    · left
      simp [rankBy, List.countP_cons, fin_lt]
      norm_num
    · right
      simp [rankBy, List.countP_cons, fin_lt]
      norm_num
    · simp at hi
    · simp at hi

end Libcmaes
