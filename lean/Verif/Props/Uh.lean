import Verif.Lemmas.Rerank
import Verif.Lemmas.Tell
import Verif.Lemmas.Init
import Verif.Lemmas.Witness
import Verif.Props.Params
import Verif.Props.Eval

/-!
# C41, C42: uncertainty handling; C38 fails with it
-/

namespace Libcmaes

open Spec

variable {n : ℕ}

/-! ### C41 -/

/-- **C41**, how many: for parameters a user can set up and any draw, the number of candidates to
re-evaluate is `rlambda * lambda` rounded down or up, and lies between 2 and `lambda`. -/
theorem C41_number (env : Env n) (p : Params n) (k : ℕ) (hp : Configured p) :
    2 ≤ Strat.lambdaReevOf p (env.u k) ∧ Strat.lambdaReevOf p (env.u k) ≤ p.lambda ∧
      (Strat.lambdaReevOf p (env.u k) = ⌊p.rlambda * p.lambda⌋₊ ∨
        Strat.lambdaReevOf p (env.u k) = ⌈p.rlambda * p.lambda⌉₊) :=
  lambdaReev_good env p k hp.good.1

/-- **C41**, calls: `eval` of a population with uncertainty handling makes, after one call per candidate,
between 2 and `lambda` further calls; `lambda_reev` is their number. -/
theorem C41_calls (env : Env n) (s s' : Strat n) (cols phen : List (Vec n)) (hp : Configured s.p)
    (huh : s.p.uh = true) (hc : s.sol.cands.length = s.p.lambda) (hl : cols.length = s.p.lambda)
    (hl' : phen.length = s.p.lambda) (h : s.eval env cols phen = .ok s') :
    ∃ c d, s'.calls = s.calls ++ c ++ d ∧ (c.map Prod.fst).Perm phen ∧ d.length = s'.sol.lambdaReev ∧
      2 ≤ d.length ∧ d.length ≤ s.p.lambda := by
  obtain ⟨a1, a2, -⟩ := C41_number env s.p s.nu hp
  rw [eval_uh_eq huh (by omega) (fun _ => by omega) (by omega)] at h
  obtain ⟨s3, h3, h⟩ := Out.bind_eq_ok.1 h
  injection h with h
  refine ⟨loopCalls env.f (colY cols phen) s.calls.length (s.order env cols.length),
    (List.range (Strat.lambdaReevOf s.p (env.u s.nu))).map fun r =>
            (s.uhPoint env cols phen r,
              env.f ((s.evaluated env cols phen).calls.length + r) (s.uhPoint env cols phen r)), ?_, ?_, ?_, ?_, ?_⟩
  · rw [← h]
    show s3.calls = _
    rcases Strat.reinject_frame h3 with h | ⟨_, _, _, h⟩ <;> rw [h] <;> rfl
  · rw [loopCalls_fst]
    refine ((Strat.order_perm env s cols.length).map _).trans ?_
    have : (List.range cols.length).map (colY cols phen) = phen := by
      apply List.ext_getElem
      · simp; omega
      · intro i i1 i2
        have hne : phen ≠ [] := by intro h; rw [h] at i2; simp at i2
        simp [colY, colX, hne, List.getD_eq_getElem?_getD, i2]
    rw [this]
  · rw [← h]
    have : (s3.updateFevals (cols.length + Strat.lambdaReevOf s.p (env.u s.nu))).sol.lambdaReev =
      Strat.lambdaReevOf s.p (env.u s.nu) := by
      show s3.sol.lambdaReev = _
      rcases Strat.reinject_frame h3 with h | ⟨_, _, _, h⟩ <;> rw [h]
    rw [this]; simp
  · simpa using a1
  · simpa using a2

/-- **C41**, reranking: when `tell` returns after `eval` of a whole population with uncertainty handling, the
reranked population is a permutation of the evaluated one. -/
theorem C41_rerank (env : Env n) (s s2 s3 : Strat n) (cols phen : List (Vec n)) (hp : Configured s.p)
    (huh : s.p.uh = true) (hc : s.sol.cands.length = s.p.lambda) (hl : cols.length = s.p.lambda)
    (hl' : phen.length = s.p.lambda) (h : s.eval env cols phen = .ok s2) (h' : s2.tell env = .ok s3) :
    s3.sol.cands.Perm s2.sol.cands :=
  rerank_perm hp.good.1 huh hc hl hl' h h'

/-! ### C42 -/

/-- **C42**, the case in which the comparison is legal: no rank is changed by the re-evaluation. -/
theorem C42_partial (lreev : ℕ) (md : ℝ) (l : List RankedCand) (h : ∀ c ∈ l, c.r1 = c.r2)
    (hd : ∀ a ∈ l, ∀ b ∈ l, a.r1 = b.r1 → a = b) : StrictWeakOn (uhLess lreev md) l := by
  have key : ∀ a ∈ l, ∀ b ∈ l, (uhLess lreev md a b ↔ a.r1 < b.r1) := by
    intro a ha b hb
    unfold uhLess
    simp only
    rw [← h a ha, ← h b hb]
    by_cases e : a.r1 = b.r1
    · have := hd a ha b hb e
      subst this
      simp [FVal.lt_irrefl]
    · rw [if_neg (by omega)]; omega
  refine ⟨fun a ha => ?_, fun a ha b hb c hc => ?_, fun a ha b hb c hc => ?_⟩
  · rw [key a ha a ha]; omega
  · rw [key a ha b hb, key b hb c hc, key a ha c hc]; omega
  · rw [key a ha b hb, key b hb a ha, key b hb c hc, key c hc b hb, key a ha c hc, key c hc a ha]; omega

/-- If all elements of a rearrangement are in strict order, it is the result of sorting. -/
theorem unstableSort_unique_gen {α : Type} (u : USort α) {lt : α → α → Prop} {l out : List α}
    (hsw : StrictWeakOn lt l) (hp : out.Perm l) (hs : out.Pairwise lt) :
    unstableSort u lt l = .ok out := by
  unfold unstableSort
  rw [if_pos hsw]
  congr 1
  refine List.Perm.eq_of_pairwise (le := fun a b => ¬ lt b a) ?_ (u.sorted _ _ hsw)
    (hs.imp_of_mem fun {a b} ha hb h1 h2 =>
      hsw.1 a (hp.mem_iff.1 ha) (hsw.2.1 a (hp.mem_iff.1 ha) b (hp.mem_iff.1 hb) a (hp.mem_iff.1 ha) h1 h2))
    ((u.perm _ _ hsw).trans hp.symm)
  intro a b ha hb h1 h2
  have ha' : a ∈ out := hp.mem_iff.2 ((u.perm _ _ hsw).mem_iff.1 ha)
  by_contra hne
  have hsym : Std.Symm fun a b => lt a b ∨ lt b a := ⟨fun a b h => h.symm⟩
  rcases (hs.imp (S := fun a b => lt a b ∨ lt b a) fun h => Or.inl h).forall ha' hb hne with h | h
  · exact h2 h
  · exact h1 h

theorem zipIdx_map_zipIdx {α β γ : Type} (l : List α) (g : α × ℕ → β) (h : β × ℕ → γ) :
    (l.zipIdx.map g).zipIdx.map h = l.zipIdx.map fun q => h (g q, q.2) := by
  apply List.ext_getElem
  · simp
  · intro i h1 h2; simp

theorem pairwise_zipIdx {α : Type} {R : α → α → Prop} {l : List α} (h : l.Pairwise R) :
    l.zipIdx.Pairwise fun a b => R a.1 b.1 := by
  rw [← List.zipIdx_map_fst 0 l, List.pairwise_map] at h
  exact h

/-- When the re-evaluations rank the candidates as the first values do, the reranking is defined and is the
plain ranking. -/
theorem uncertaintyHandling_consistent {env : Env n} {s : Strat n}
    (hn : ∀ c ∈ s.sol.candsUh, c.fvalue.IsNum ∧ c.fvalueMut.IsNum)
    (hd : s.sol.candsUh.Pairwise fun a b => FVal.lt a.fvalue b.fvalue ∨ FVal.lt b.fvalue a.fvalue)
    (hsame : ∀ a ∈ s.sol.candsUh, ∀ b ∈ s.sol.candsUh, FVal.lt a.fvalue b.fvalue →
      FVal.lt a.fvalueMut b.fvalueMut)
    (hidx : ∀ c ∈ s.sol.candsUh, ∃ d, s.sol.cands[c.idx]? = some d ∧ d.fvalue = c.fvalue)
    (hr : s.sol.lambdaReev ≠ 0) (hl : 1 ≤ s.p.lambda) :
    ∃ s', s.uncertaintyHandling env = .ok s' ∧ s'.sol.cands.length = s.sol.candsUh.length ∧
      s'.sol.cands.Pairwise fun a b => FVal.lt a.fvalue b.fvalue := by
  have hsw1 : StrictWeakOn (fun a b : RankedCand => FVal.lt a.fvalue b.fvalue) s.sol.candsUh :=
    (strictWeakOn_fval RankedCand.fvalue _).2 (Or.inl fun c hc => (hn c hc).1)
  obtain ⟨l1, h1⟩ : ∃ l1, unstableSort env.usort (fun a b => FVal.lt a.fvalue b.fvalue) s.sol.candsUh = .ok l1 := by
    unfold unstableSort; rw [if_pos hsw1]; exact ⟨_, rfl⟩
  obtain ⟨-, p1, q1⟩ := unstableSort_ok h1
  have o1 : l1.Pairwise fun a b => FVal.lt a.fvalue b.fvalue := by
    have hsym : Std.Symm fun a b : RankedCand => FVal.lt a.fvalue b.fvalue ∨ FVal.lt b.fvalue a.fvalue :=
      ⟨fun a b h => h.symm⟩
    have hd1 := (p1.pairwise_iff (R := fun a b : RankedCand => FVal.lt a.fvalue b.fvalue ∨
      FVal.lt b.fvalue a.fvalue) (fun {a b} h => h.symm)).2 hd
    exact (hd1.and q1).imp fun h => h.1.resolve_right h.2
  set g1 : RankedCand × ℕ → RankedCand := fun q => { q.1 with r1 := q.2 } with hg1
  have h2 : unstableSort env.usort (fun a b => FVal.lt a.fvalueMut b.fvalueMut) (l1.zipIdx.map g1) =
      .ok (l1.zipIdx.map g1) := by
    have hm : ∀ c ∈ l1.zipIdx.map g1, c.fvalueMut.IsNum := by
      intro c hc
      obtain ⟨q, hq, rfl⟩ := List.mem_map.1 hc
      exact (hn q.1 (p1.mem_iff.1 (List.fst_mem_of_mem_zipIdx hq))).2
    refine unstableSort_unique env.usort RankedCand.fvalueMut hm (List.Perm.refl _) ?_
    rw [List.pairwise_map]
    refine (pairwise_zipIdx o1).imp_of_mem fun {a b} ha hb h => ?_
    exact hsame a.1 (p1.mem_iff.1 (List.fst_mem_of_mem_zipIdx ha)) b.1
      (p1.mem_iff.1 (List.fst_mem_of_mem_zipIdx hb)) h
  set l3 : List RankedCand := l1.zipIdx.map fun q =>
    if s.sol.lambdaReev ≤ q.1.idx then { q.1 with r1 := q.2, r2 := q.2 }
    else { q.1 with r1 := q.2, r2 := q.2, delta := 0 } with hl3
  have e3 : ((l1.zipIdx.map g1).zipIdx.map fun q => { q.1 with r2 := q.2 }).map (fun c =>
      if s.sol.lambdaReev ≤ c.idx then c
      else { c with delta := (c.r2 : ℤ) - c.r1 - sgn ((c.r2 : ℤ) - c.r1) }) = l3 := by
    rw [zipIdx_map_zipIdx, List.map_map]
    apply List.map_congr_left
    intro q _
    simp [hg1, sgn]
  have hr3 : ∀ i (hi : i < l3.length), (l3[i]).r1 = i ∧ (l3[i]).r2 = i := by
    intro i hi
    simp only [hl3, List.getElem_map, List.getElem_zipIdx, Nat.zero_add]
    split_ifs <;> exact ⟨rfl, rfl⟩
  have hm3 : ∀ c ∈ l3, c.r1 = c.r2 := by
    intro c hc
    obtain ⟨i, hi, rfl⟩ := List.getElem_of_mem hc
    rw [(hr3 i hi).1, (hr3 i hi).2]
  have hd3 : ∀ a ∈ l3, ∀ b ∈ l3, a.r1 = b.r1 → a = b := by
    intro a ha b hb h
    obtain ⟨i, hi, rfl⟩ := List.getElem_of_mem ha
    obtain ⟨j, hj, rfl⟩ := List.getElem_of_mem hb
    rw [(hr3 i hi).1, (hr3 j hj).1] at h
    subst h; rfl
  obtain ⟨ts, hts⟩ := Out.mapM_ok_of fun c (_ : c ∈ l3) => uhTerm_total hl s.sol.lambdaReev c
  have h4 : ∀ md, unstableSort env.usort (uhLess s.sol.lambdaReev md) l3 = .ok l3 := by
    intro md
    refine unstableSort_unique_gen env.usort (C42_partial _ _ _ hm3 hd3) (List.Perm.refl _) ?_
    rw [List.pairwise_iff_getElem]
    intro i j hi hj hij
    unfold uhLess
    rw [(hr3 i hi).1, (hr3 i hi).2, (hr3 j hj).1, (hr3 j hj).2]
    simp only
    rw [if_neg (by omega)]
    omega
  have hi3 : l3.map (·.idx) = l1.map (·.idx) := by
    rw [hl3, List.map_map]
    have : ((fun c : RankedCand => c.idx) ∘ fun q : RankedCand × ℕ =>
        if s.sol.lambdaReev ≤ q.1.idx then { q.1 with r1 := q.2, r2 := q.2 }
        else { q.1 with r1 := q.2, r2 := q.2, delta := 0 }) = (fun c : RankedCand => c.idx) ∘ Prod.fst := by
      funext q; simp only [Function.comp]; split_ifs <;> rfl
    rw [this, ← List.map_map]
    exact congrArg _ (List.zipIdx_map_fst 0 l1)
  obtain ⟨cs, h5⟩ : ∃ cs, l3.mapM (fun c => at! s.sol.cands c.idx) = .ok cs := by
    refine Out.mapM_ok_of fun c hc => ?_
    have : c.idx ∈ l1.map (·.idx) := by rw [← hi3]; exact List.mem_map_of_mem hc
    obtain ⟨c', hc', e⟩ := List.mem_map.1 this
    obtain ⟨d, hd, -⟩ := hidx c' (p1.mem_iff.1 hc')
    exact ⟨d, by rw [at!_eq_ok, ← e]; exact hd⟩
  refine ⟨{ s with sol := { s.sol with candsUh := l3, suh := ts.sum / s.sol.lambdaReev, cands := cs } },
    ?_, ?_, ?_⟩
  · unfold Strat.uncertaintyHandling
    rw [h1, Out.ok_bind]
    simp only
    rw [h2, Out.ok_bind, e3, if_neg hr, hts, Out.ok_bind, h4, Out.ok_bind, h5]
    rfl
  · show cs.length = _
    rw [← Out.mapM_length h5, hl3, List.length_map, List.length_zipIdx, p1.length_eq]
  · show cs.Pairwise _
    rw [mapM_at h5, hi3, List.map_map, List.pairwise_map]
    refine o1.imp_of_mem fun {a b} ha hb h => ?_
    obtain ⟨d, hd, ed⟩ := hidx a (p1.mem_iff.1 ha)
    obtain ⟨d', hd', ed'⟩ := hidx b (p1.mem_iff.1 hb)
    simp only [Function.comp, List.getD_eq_getElem?_getD, hd, hd', Option.getD_some, ed, ed']
    exact h

/-- `eval` with uncertainty handling in the absence of elitism. -/
theorem eval_uh_ok {env : Env n} {s s2 : Strat n} {cols phen : List (Vec n)} (hp : Configured s.p)
    (huh : s.p.uh = true) (hc : s.sol.cands.length = s.p.lambda) (hl : cols.length = s.p.lambda)
    (hl' : phen.length = s.p.lambda) (hel : s.elitismOn = false) (h : s.eval env cols phen = .ok s2) :
    s2.p = s.p ∧ s2.sol.cands = (s.evaluated env cols phen).sol.cands ∧
      s2.sol.lambdaReev = Strat.lambdaReevOf s.p (env.u s.nu) ∧
      s2.sol.candsUh = (List.range cols.length).map ((s.evaluated env cols phen).uhCand env cols phen
        (Strat.lambdaReevOf s.p (env.u s.nu))) := by
  obtain ⟨a1, a2, -⟩ := C41_number env s.p s.nu hp
  rw [eval_uh_eq huh (by omega) (fun _ => by omega) (by omega), Strat.reinject, if_neg, Out.ok_bind] at h
  · injection h with h
    rw [← h]
    exact ⟨rfl, rfl, rfl, rfl⟩
  · have : s.elitismOn ≠ true := by rw [hel]; simp
    exact this

/-- **C42**, where the reranking works: the values of the population are distinct numbers and the
re-evaluations (`fvalueMut`) rank the candidates as the values do.  Then `tell` ranks by objective value. -/
theorem C42_consistent (env : Env n) (s s2 : Strat n) (cols phen : List (Vec n)) (hp : Configured s.p)
    (huh : s.p.uh = true) (hc : s.sol.cands.length = s.p.lambda) (hl : cols.length = s.p.lambda)
    (hl' : phen.length = s.p.lambda) (hel : s.elitismOn = false) (h : s.eval env cols phen = .ok s2)
    (hn : ∀ c ∈ s2.sol.candsUh, c.fvalue.IsNum ∧ c.fvalueMut.IsNum)
    (hd : s2.sol.candsUh.Pairwise fun a b => FVal.lt a.fvalue b.fvalue ∨ FVal.lt b.fvalue a.fvalue)
    (hsame : ∀ a ∈ s2.sol.candsUh, ∀ b ∈ s2.sol.candsUh, FVal.lt a.fvalue b.fvalue →
      FVal.lt a.fvalueMut b.fvalueMut) :
    ∃ t, s2.rank env = .ok t ∧ t.sol.cands.Perm s2.sol.cands ∧
      t.sol.cands.Pairwise fun a b => FVal.lt a.fvalue b.fvalue := by
  obtain ⟨e1, e2, e3, e4⟩ := eval_uh_ok hp huh hc hl hl' hel h
  obtain ⟨a1, a2, -⟩ := C41_number env s.p s.nu hp
  have hlen : s2.sol.cands.length = s.p.lambda := by rw [e2, Strat.evaluated_length]; exact hc
  obtain ⟨t, h1, h2, h3⟩ := uncertaintyHandling_consistent (env := env) (s := s2) hn hd hsame (by
    intro c hc
    rw [e4] at hc
    obtain ⟨r, hr, rfl⟩ := List.mem_map.1 hc
    have hr' : r < (s.evaluated env cols phen).sol.cands.length := by
      rw [← e2, hlen, ← hl]; exact List.mem_range.1 hr
    refine ⟨(s.evaluated env cols phen).sol.cands[r], ?_, ?_⟩
    · show s2.sol.cands[r]? = _
      rw [e2, List.getElem?_eq_getElem hr']
    · unfold Strat.uhCand
      simp [List.getD_eq_getElem?_getD, List.getElem?_eq_getElem hr']) (by rw [e3]; omega)
      (by rw [e1]; have := hp.good.1.lambda; omega)
  have hr : s2.rank env = .ok t := by
    unfold Strat.rank
    rw [if_pos (by rw [e1]; exact huh)]
    exact h1
  refine ⟨t, hr, uncertaintyHandling_perm ?_ h1, h3⟩
  rw [e4, hlen, hl, List.map_map]
  have : ((fun c : RankedCand => c.idx) ∘ (s.evaluated env cols phen).uhCand env cols phen
      (Strat.lambdaReevOf s.p (env.u s.nu))) = id := by funext r; rfl
  rw [this, List.map_id]

/-- A finite value. -/
noncomputable def fin (r : ℝ) : FVal := .num (r : EReal)

theorem fin_lt (a b : ℝ) : FVal.lt (fin a) (fin b) ↔ a < b := EReal.coe_lt_coe_iff

theorem fin_isNum (a : ℝ) : (fin a).IsNum := trivial

/-- The candidates of the counterexample: values, values of the re-evaluation of the first two, indices. -/
noncomputable def uhWitness : List RankedCand :=
  [⟨fin 0, fin 9, 0, 0, 0, 0⟩, ⟨fin 4, fin 10, 1, 0, 0, 0⟩, ⟨fin 2, fin 2, 2, 0, 0, 0⟩,
   ⟨fin 6, fin 6, 3, 0, 0, 0⟩, ⟨fin 8, fin 8, 4, 0, 0, 0⟩]

theorem unstableSort_ub {α : Type} (u : USort α) {lt : α → α → Prop} {l : List α} (a b : α) (ha : a ∈ l)
    (hb : b ∈ l) (h1 : lt a b) (h2 : lt b a) : unstableSort u lt l = .error .ub := by
  unfold unstableSort
  rw [if_neg]
  intro h
  exact h.1 a ha (h.2.1 a ha b hb a ha h1 h2)

/-- `std::sort` is called with a comparison that is not a strict weak order. -/
theorem uncertaintyHandling_ub {env : Env n} {s : Strat n} (h1 : s.sol.candsUh = uhWitness)
    (h2 : s.sol.lambdaReev = 2) (h3 : 1 ≤ s.p.lambda) : s.uncertaintyHandling env = .error .ub := by
  have k1 : unstableSort env.usort (fun a b => FVal.lt a.fvalue b.fvalue) uhWitness = .ok
      [⟨fin 0, fin 9, 0, 0, 0, 0⟩, ⟨fin 2, fin 2, 2, 0, 0, 0⟩, ⟨fin 4, fin 10, 1, 0, 0, 0⟩,
       ⟨fin 6, fin 6, 3, 0, 0, 0⟩, ⟨fin 8, fin 8, 4, 0, 0, 0⟩] := by
    apply unstableSort_unique env.usort RankedCand.fvalue
    · simp [uhWitness, fin_isNum]
    · unfold uhWitness
      exact (List.Perm.swap _ _ _).cons _
    · simp [fin_lt]
      norm_num
  have k2 : unstableSort env.usort (fun a b => FVal.lt a.fvalueMut b.fvalueMut)
      [⟨fin 0, fin 9, 0, 0, 0, 0⟩, ⟨fin 2, fin 2, 2, 1, 0, 0⟩, ⟨fin 4, fin 10, 1, 2, 0, 0⟩,
       ⟨fin 6, fin 6, 3, 3, 0, 0⟩, ⟨fin 8, fin 8, 4, 4, 0, 0⟩] = .ok
      [⟨fin 2, fin 2, 2, 1, 0, 0⟩, ⟨fin 6, fin 6, 3, 3, 0, 0⟩, ⟨fin 8, fin 8, 4, 4, 0, 0⟩,
       ⟨fin 0, fin 9, 0, 0, 0, 0⟩, ⟨fin 4, fin 10, 1, 2, 0, 0⟩] := by
    apply unstableSort_unique env.usort RankedCand.fvalueMut
    · simp [fin_isNum]
    · exact (List.perm_append_comm (l₁ := [_, _, _]) (l₂ := [_, _])).trans ((List.Perm.swap _ _ _).cons _)
    · simp [fin_lt]
      norm_num
  unfold Strat.uncertaintyHandling
  rw [h1, k1, Out.ok_bind]
  simp only [List.zipIdx_cons, List.zipIdx_nil, List.map_cons, List.map_nil, Nat.zero_add, Nat.reduceAdd]
  rw [k2, Out.ok_bind, h2]
  simp only [List.zipIdx_cons, List.zipIdx_nil, List.map_cons, List.map_nil, Nat.zero_add, Nat.reduceAdd]
  rw [if_neg (by norm_num)]
  obtain ⟨ts, hts⟩ := Out.mapM_ok_of fun c (_ : c ∈ _) => uhTerm_total h3 2 c
  rw [hts, Out.ok_bind]
  rw [unstableSort_ub env.usort ⟨fin 0, fin 9, 0, 0, 3, 2⟩ ⟨fin 4, fin 10, 1, 2, 4, 1⟩]
  · rfl
  · simp [sgn]
  · simp [sgn]
  · unfold uhLess; norm_num
  · unfold uhLess; norm_num

/-- The candidates of a first generation with 4 candidates and the values `v`, the first two re-evaluated. -/
noncomputable def fourCands (v : ℕ → ℝ) : List RankedCand :=
  [⟨fin (v 0), fin (v 4), 0, 0, 0, 0⟩, ⟨fin (v 1), fin (v 5), 1, 0, 0, 0⟩, ⟨fin (v 2), fin (v 2), 2, 0, 0, 0⟩,
   ⟨fin (v 3), fin (v 3), 3, 0, 0, 0⟩]

/-- A first generation under uncertainty handling: dimension 1, default parameters (`lambda` 4), an objective
returning the values `v` call by call. -/
theorem uh_first (env : Env 1) (v : ℕ → ℝ) (hf : env.f = fun k _ => fin (v k))
    (hrank : ∀ s2 : Strat 1, Configured s2.p → s2.sol.candsUh = fourCands v → s2.sol.lambdaReev = 2 →
      s2.sol.cands.length = 4 → (∀ i < 4, ((s2.sol.cands.getD i Cand.blank).fvalue = fin (v i))) →
      ∃ t, s2.uncertaintyHandling env = .ok t ∧ t.sol.cands.length = 4) :
    ∃ p, Params.make (fun _ : Fin 1 => 0) 1 (-1) 1 0 GenoPheno.plain = .ok p ∧
      ∃ s pop s1 phen s2 s3, Strat.new env .plain { p with uh := true } = .ok s ∧ s.ask env = .ok (pop, s1) ∧
        s1.phenoCols pop = .ok phen ∧ s1.eval env pop phen = .ok s2 ∧ s2.tell env = .ok s3 ∧
        Configured s1.p ∧ s1.p.uh = true ∧ s1.p.tpa < 2 ∧ s1.p.lambda = 4 ∧ s1.sol.cands.length = 4 ∧
        pop.length = 4 ∧ phen.length = 4 ∧ s1.elitismOn = false ∧ s2.sol.candsUh = fourCands v ∧
        s2.sol.lambdaReev = 2 := by
  obtain ⟨p, hp, hlam, -⟩ := C11_weights (n := 1) le_rfl (fun _ => 0) 1 (-1) 1 0 GenoPheno.plain
  have hl4 : p.lambda = 4 := by
    have : lambdaOf 1 (-1) = .ok 4 := by
      unfold lambdaOf
      rw [if_pos (by norm_num), if_neg (by norm_num)]
      norm_num
      rfl
    rw [this] at hlam
    injection hlam with h; exact h.symm
  obtain ⟨f1, f2, f3, f4, f5, f6, f7, f8, f9, f10, f11, -⟩ := Params.make_plain hp
  obtain ⟨⟨⟨hc, hst, hk, hvd, hlz, hg, hie, hel⟩, -, -⟩, -⟩ := usual_default (by norm_num) hp (kind := .plain) (by decide)
  have hc' : Configured { p with uh := true } := .other hc ⟨rfl, rfl, rfl, rfl, rfl, rfl, rfl, rfl, rfl, rfl,
    rfl, rfl, rfl, rfl, rfl, rfl, rfl⟩
  have hu : UsualCore .plain { p with uh := true } := ⟨hc', ⟨hst.1, hst.2⟩, hk, hvd, hlz, hg, hie, hel⟩
  obtain ⟨s, hs⟩ := new_plain (env := env) (kind := .plain) (p := { p with uh := true }) f10 hc'.good.1
  obtain ⟨h1, h2, h3, h4, h5, h6, h7, h8, h9, h10, -⟩ := Strat.new_ok hs
  obtain ⟨hL, -⟩ := liveCore_new hu hs
  have hmv : Moved s := fun _ h => by omega
  have htpa : p.tpa < 2 := by
    unfold Params.make at hp
    obtain ⟨l, -, hp⟩ := Out.bind_eq_ok.1 hp
    obtain ⟨mu, w, muw, cs, cc, c1, cm, ds, fs, fc, ch, lv, rl, al, e⟩ := initializeParameters_frame hp
    rw [e]; simp [Params.blank]
  have key : ∀ pop s1 phen, s.ask env = .ok (pop, s1) → s1.phenoCols pop = .ok phen →
      (∃ s2, s1.eval env pop phen = .ok s2 ∧ ∃ t, s2.rank env = .ok t ∧ t.sol.cands.length = s.p.lambda) ∧
      ∀ s2, s1.eval env pop phen = .ok s2 → Configured s1.p ∧ s1.p.uh = true ∧ s1.p.tpa < 2 ∧ s1.p.lambda = 4 ∧
        s1.sol.cands.length = 4 ∧
        pop.length = 4 ∧ phen.length = 4 ∧ s1.elitismOn = false ∧ s2.sol.candsUh = fourCands v ∧
        s2.sol.lambdaReev = 2 := by
    intro pop s1 phen hask hph
    obtain ⟨pop', s1', hask', hcalls, -⟩ := Strat.ask_total (env := env) (hL.ask hmv)
    rw [hask] at hask'
    injection hask' with hask'
    injection hask' with ea eb
    subst ea eb
    obtain ⟨⟨es, ei, ue, c, nz, x1, x2, p1, p2, e1⟩, hpl⟩ := Strat.ask_frame hask
    have ep : s1.p = { p with uh := true, sigmaInit := s.sol.sigma } := by rw [e1]; exact h4
    have eneg : s1.negate = false := by rw [e1]; show s.negate = _; rw [h10]; exact f8
    have ecands : s1.sol.cands.length = 4 := by rw [e1]; show s.sol.cands.length = _; rw [h6.cands]; exact hl4
    have enit : s1.niter = 0 := by rw [e1]; exact h7
    have epl : pop.length = 4 := by rw [hpl, h4]; exact hl4
    have el : s1.p.lambda = 4 := by rw [ep]; exact hl4
    have hcl : s1.calls = [] := by rw [hcalls]; exact h9
    have hel1 : s1.elitismOn = false := by simp [Strat.elitismOn, enit]
    have hc1 : Configured s1.p := by
      rw [ep]
      exact .other hc ⟨rfl, rfl, rfl, rfl, rfl, rfl, rfl, rfl, rfl, rfl, rfl, rfl, rfl, rfl, rfl, rfl, rfl⟩
    have hreev : Strat.lambdaReevOf s1.p (env.u s1.nu) = 2 := by
      have hrl : s1.p.rlambda * s1.p.lambda = 2 := by
        rw [hc1.good.1.rlambda, el, max_eq_right (by norm_num)]
        norm_num
      obtain ⟨-, -, h | h⟩ := C41_number env s1.p s1.nu hc1
      · rw [h, hrl]; norm_num
      · rw [h, hrl]; norm_num
    have hphl : phen.length = 4 := by rw [← epl]; exact (Out.mapM_length hph).symm
    have hev : ∃ s2, s1.eval env pop phen = .ok s2 := by
      rw [eval_uh_eq (by rw [ep]) (by omega) (fun _ => by omega) (by rw [hreev]; omega), Strat.reinject,
        if_neg (by
          have : s1.elitismOn ≠ true := by rw [hel1]; simp
          exact this), Out.ok_bind]
      exact ⟨_, rfl⟩
    obtain ⟨s2, hev⟩ := hev
    obtain ⟨g1, g2, g3, g4⟩ := eval_uh_ok hc1 (by rw [ep]) (by omega) (by omega) (by omega) hel1 hev
    have hord : s1.order env 4 = List.range 4 := by
      unfold Strat.order; rw [if_neg]; rw [ep]; simp [f9]
    have hvals : ∀ r < 4, ((s1.evaluated env pop phen).sol.cands.getD r Cand.blank).fvalue =
        fin (v r) := by
      intro r hr
      rw [List.getD_eq_getElem?_getD, Strat.evaluated_cands (by omega), if_pos (by omega), epl, hord, hcl,
        hf, eneg]
      have : (List.range 4).idxOf r = r := by interval_cases r <;> rfl
      rw [this]
      simp [negIf]
    have hlen : (s1.evaluated env pop phen).calls.length = 4 := by
      simp [Strat.evaluated, hcl, loopCalls_length, epl, hord]
    have hng : (s1.evaluated env pop phen).negate = false := eneg
    have hcu : s2.sol.candsUh = fourCands v := by
      rw [g4, epl, hreev]
      have k0 := hvals 0 (by omega)
      have k1 := hvals 1 (by omega)
      have k2 := hvals 2 (by omega)
      have k3 := hvals 3 (by omega)
      show [Strat.uhCand env _ pop phen 2 0, Strat.uhCand env _ pop phen 2 1, Strat.uhCand env _ pop phen 2 2,
        Strat.uhCand env _ pop phen 2 3] = _
      unfold Strat.uhCand fourCands
      simp only [k0, k1, k2, k3, hlen, hf, hng]
      simp [negIf]
    have hl2 : s2.sol.lambdaReev = 2 := by rw [g3, hreev]
    have hcl2 : s2.sol.cands.length = 4 := by rw [g2, Strat.evaluated_length]; exact ecands
    obtain ⟨t, ht, htl⟩ := hrank s2 (by rw [g1]; exact hc1) hcu hl2 hcl2 (by rw [g2]; exact hvals)
    refine ⟨⟨s2, hev, t, ?_, ?_⟩, ?_⟩
    · unfold Strat.rank
      rw [if_pos (by rw [g1, ep])]
      exact ht
    · rw [htl, h4]; exact hl4.symm
    · intro s2' hev'
      rw [hev] at hev'
      injection hev' with hev'
      subst hev'
      exact ⟨hc1, by rw [ep], by rw [ep]; exact htpa, el, ecands, epl, hphl, hel1, hcu, hl2⟩
  refine ⟨p, hp, s, ?_⟩
  rcases generation_total_core hL hmv (fun pop s1 phen h h' => (key pop s1 phen h h').1) with ⟨s', h, -⟩ | ⟨x, e, h, -⟩
  · unfold Strat.generation at h
    obtain ⟨⟨pop, s1⟩, ha, h⟩ := Out.bind_eq_ok.1 h
    obtain ⟨phen, hb, h⟩ := Out.bind_eq_ok.1 h
    obtain ⟨s2, hc, h⟩ := Out.bind_eq_ok.1 h
    obtain ⟨s3, hd, h⟩ := Out.bind_eq_ok.1 h
    exact ⟨pop, s1, phen, s2, s3, hs, ha, hb, hc, hd, (key pop s1 phen ha hb).2 s2 hc⟩
  · rw [h4] at h
    have : phenoV p.gp x = .error e := h
    rw [f10, phenoV_plain] at this; cases this

/-- The values of a noiseless objective. -/
noncomputable def calmValues (k : ℕ) : ℝ := ([0, 1, 2, 3, 0, 1] : List ℝ).getD k 0

/-- The hypotheses of `C42_consistent` and `C41_rerank` are met: dimension 1, default parameters (`lambda` 4)
with uncertainty handling, an objective returning 0, 1, 2, 3 and then 0, 1 for the re-evaluations. -/
theorem calm_rank (env : Env 1) (s2 : Strat 1) (hc : Configured s2.p) (hcu : s2.sol.candsUh = fourCands calmValues)
    (hl : s2.sol.lambdaReev = 2) (hlen : s2.sol.cands.length = 4)
    (hv : ∀ i < 4, ((s2.sol.cands.getD i Cand.blank).fvalue = fin (calmValues i))) :
    ∃ t, s2.uncertaintyHandling env = .ok t ∧ t.sol.cands.length = 4 := by
  have hu : fourCands calmValues = [⟨fin 0, fin 0, 0, 0, 0, 0⟩, ⟨fin 1, fin 1, 1, 0, 0, 0⟩,
      ⟨fin 2, fin 2, 2, 0, 0, 0⟩, ⟨fin 3, fin 3, 3, 0, 0, 0⟩] := by simp [fourCands, calmValues]
  rw [hu] at hcu
  obtain ⟨t, h1, h2, -⟩ := uncertaintyHandling_consistent (env := env) (s := s2) (by rw [hcu]; simp [fin_isNum])
    (by rw [hcu]; simp [fin_lt]) (by rw [hcu]; simp [fin_lt]) (by
      intro c hc
      have hi : c.idx < 4 ∧ c.fvalue = fin (calmValues c.idx) := by
        rw [hcu] at hc
        simp only [List.mem_cons, List.not_mem_nil, or_false] at hc
        rcases hc with rfl | rfl | rfl | rfl <;> simp [calmValues]
      refine ⟨s2.sol.cands[c.idx]'(by omega), List.getElem?_eq_getElem _, ?_⟩
      have := hv c.idx hi.1
      rw [List.getD_eq_getElem?_getD, List.getElem?_eq_getElem (by omega)] at this
      rw [hi.2]
      exact this) (by omega) (by have := hc.good.1.lambda; omega)
  exact ⟨t, h1, by rw [h2, hcu]; rfl⟩

example (env : Env 1) (hf : env.f = fun k _ => fin (calmValues k)) :
    ∃ p, Params.make (fun _ : Fin 1 => 0) 1 (-1) 1 0 GenoPheno.plain = .ok p ∧
      ∃ s s', Strat.new env .plain { p with uh := true } = .ok s ∧ s.generation env = .ok s' := by
  obtain ⟨p, hp, s, pop, s1, phen, s2, s3, h1, h2, h3, h4, h5, -⟩ := uh_first env calmValues hf (calm_rank env)
  refine ⟨p, hp, s, s3.incIter, h1, ?_⟩
  unfold Strat.generation
  rw [h2, Out.ok_bind]
  simp only
  rw [h3, Out.ok_bind, h4, Out.ok_bind, h5]
  rfl

/-- The objective of the counterexample, by number of the call. -/
noncomputable def uhObjective (k : ℕ) (_ : Vec n) : FVal := fin ([0, 4, 2, 6, 8, 9, 10].getD k 0)

/-- **C42 does not hold**: in any dimension, with population size 5 and otherwise default parameters and
uncertainty handling, there is a (noisy) objective for which the first generation ends in undefined
behaviour, whatever the random draws. -/
theorem C42_false (hn : 1 ≤ n) (x0 : Vec n) (sigma : ℝ) (seed clock : ℕ) (kind : CovKind) (env : Env n)
    (hf : env.f = uhObjective) :
    ∃ p, Params.make x0 sigma 5 seed clock GenoPheno.plain = .ok p ∧
      ∃ s, Strat.new env kind { p with uh := true } = .ok s ∧ s.generation env = .error .ub := by
  obtain ⟨p, hp, hlam, -⟩ := C11_weights hn x0 sigma 5 seed clock GenoPheno.plain
  have hl5 : p.lambda = 5 := by
    have : lambdaOf n 5 = .ok 5 := rfl
    rw [this] at hlam
    injection hlam with h; exact h.symm
  obtain ⟨f1, f2, f3, f4, f5, f6, f7, f8, f9, f10, f11, -⟩ := Params.make_plain hp
  have hc : Configured p := .make hp
  have hc' : Configured { p with uh := true } := .other hc ⟨rfl, rfl, rfl, rfl, rfl, rfl, rfl, rfl, rfl, rfl,
    rfl, rfl, rfl, rfl, rfl, rfl, rfl⟩
  obtain ⟨s, hs⟩ := new_plain (env := env) (kind := kind) (p := { p with uh := true }) f10 hc'.good.1
  refine ⟨p, hp, s, hs, ?_⟩
  obtain ⟨h1, h2, h3, h4, h5, h6, h7, h8, h9, h10, -⟩ := Strat.new_ok hs
  obtain ⟨pop, s1, hask, hcalls, -⟩ := Strat.ask_total (env := env)
    (askLive_new hc' (Params.make_flags hp).2 f2 f3 hs)
  obtain ⟨⟨es, ei, ue, c, nz, x1, x2, p1, p2, e1⟩, hpl⟩ := Strat.ask_frame hask
  have ep : s1.p = { p with uh := true, sigmaInit := s.sol.sigma } := by rw [e1]; exact h4
  have eneg : s1.negate = false := by rw [e1]; show s.negate = _; rw [h10]; exact f8
  have ecands : s1.sol.cands.length = 5 := by rw [e1]; show s.sol.cands.length = _; rw [h6.cands]; exact hl5
  have enit : s1.niter = 0 := by rw [e1]; exact h7
  have epl : pop.length = 5 := by rw [hpl, h4]; exact hl5
  have hc1 : Configured s1.p := by
    rw [ep]
    exact .other hc ⟨rfl, rfl, rfl, rfl, rfl, rfl, rfl, rfl, rfl, rfl, rfl, rfl, rfl, rfl, rfl, rfl, rfl⟩
  have hreev : Strat.lambdaReevOf s1.p (env.u s1.nu) = 2 := by
    have hrl : s1.p.rlambda * s1.p.lambda = 2 := by
      rw [hc1.good.1.rlambda, ep]
      show max 0.1 (2 / (p.lambda : ℝ)) * p.lambda = 2
      rw [hl5, max_eq_right (by norm_num)]
      norm_num
    obtain ⟨-, -, h | h⟩ := C41_number env s1.p s1.nu hc1
    · rw [h, hrl]; norm_num
    · rw [h, hrl]; norm_num
  unfold Strat.generation
  rw [hask, Out.ok_bind]
  have hph : s1.phenoCols pop = .ok pop := phenoCols_plain (by rw [ep]; exact f10) pop
  simp only
  rw [hph, Out.ok_bind, eval_uh_eq (by rw [ep]) (by omega) (fun _ => rfl) (by rw [hreev]; omega)]
  rw [Strat.reinject, if_neg (by simp [Strat.elitismOn, Strat.evaluated, enit]), Out.ok_bind]
  rw [Out.ok_bind]
  have hcl : s1.calls = [] := by rw [hcalls]; exact h9
  have hord : s1.order env 5 = List.range 5 := by
    unfold Strat.order; rw [if_neg]; rw [ep]; simp [f9]
  have hev : ∀ r < 5, ((s1.evaluated env pop pop).sol.cands.getD r Cand.blank).fvalue =
      fin ([0, 4, 2, 6, 8, 9, 10].getD r 0) := by
    intro r hr
    rw [List.getD_eq_getElem?_getD, Strat.evaluated_cands (by omega), if_pos (by omega), epl, hord, hcl,
      hf, eneg]
    have : (List.range 5).idxOf r = r := by interval_cases r <;> rfl
    rw [this]
    simp [negIf, uhObjective]
  have hlen : (s1.evaluated env pop pop).calls.length = 5 := by
    simp [Strat.evaluated, hcl, loopCalls_length, epl, hord]
  have hng : (s1.evaluated env pop pop).negate = false := eneg
  rw [Strat.tell, Strat.rank, if_pos (by
    show s1.p.uh = true
    rw [ep]), uncertaintyHandling_ub]
  · rfl
  · show (List.range pop.length).map _ = _
    rw [epl, hreev]
    have h0 := hev 0 (by omega)
    have h1 := hev 1 (by omega)
    have h2 := hev 2 (by omega)
    have h3 := hev 3 (by omega)
    have h4 := hev 4 (by omega)
    show [Strat.uhCand env _ pop pop 2 0, Strat.uhCand env _ pop pop 2 1, Strat.uhCand env _ pop pop 2 2,
      Strat.uhCand env _ pop pop 2 3, Strat.uhCand env _ pop pop 2 4] = _
    unfold Strat.uhCand uhWitness
    simp only [h0, h1, h2, h3, h4, hlen, hf, hng]
    simp [uhObjective, negIf]
  · exact hreev
  · show 1 ≤ s1.p.lambda
    rw [ep]; show 1 ≤ p.lambda; omega

end Libcmaes
