import Verif.Lemmas.SurrAcmStep
import Verif.Lemmas.SurrTotal

/-! # When a generation of an ACM surrogate strategy cannot fail -/

namespace Libcmaes

open Spec

variable {n : ℕ} {M : Type}

/-- `ask` for another number of points makes a live state ready. -/
theorem Live.ready_lambda {env : Env n} {s : Strat n} (hL : Live s) (k : ℕ) :
    ∃ pop s1, ({ s with p := { s.p with lambda := k } }).ask env = .ok (pop, s1) ∧
      Ready env { s1 with p := { s1.p with lambda := s.p.lambda } } := by
  have hA : AskLive { s with p := { s.p with lambda := k } } :=
    ⟨hL.good.fixed_lt, hL.vd, hL.grad, fun hs => ⟨(hL.full hs).1, fun hn => ((hL.full hs).2.2 hn).2⟩, hL.sep,
      fun h1 _ => absurd h1 hL.tpa⟩
  obtain ⟨pop, s1, hask, -, heig, heig', htp1, htp2⟩ := Strat.ask_total (env := env) hA
  refine ⟨pop, s1, hask, ?_⟩
  have hfr := Strat.ask_eig hask
  obtain ⟨⟨es, ei, ue, c, nz, x1, x2, p1, p2, e1⟩, hpl⟩ := Strat.ask_frame hask
  refine ⟨by rw [e1]; exact hL.good, by rw [e1]; exact hL.strict, by rw [e1]; exact hL.kind,
    by rw [e1]; exact hL.vd, by rw [e1]; exact hL.lazy, by rw [e1]; exact hL.grad, ?_, ?_,
    by rw [e1]; exact hL.paths, by rw [e1]; exact hL.sigma, by rw [e1]; exact hL.kcand,
    by rw [e1]; exact hL.niter, ?_, by rw [e1]; exact hL.sep, by rw [e1]; exact hL.seen,
    by rw [e1]; exact hL.init⟩
  · show s1.sol.tpaP1 < s.p.lambda ∧ s1.sol.tpaP2 < s.p.lambda
    rw [htp1, htp2]; exact hL.tpaPos
  · intro e he
    have he' : s1.es.eig = some e := he
    clear he
    by_cases hsp : s.p.sep = true
    · rw [heig' hsp] at he'; exact hL.eig e he'
    · have hsp : s.p.sep = false := by simpa using hsp
      rcases heig hsp with ⟨_, h⟩ | ⟨_, _, h⟩
      · rw [h] at he'; injection he' with he'; rw [← he']
        have hpd := (hL.full hsp).2.1
        exact ⟨fun i => eig_pos _ hpd i, env.eig.orth _ hpd.symm⟩
      · rw [h] at he'; exact hL.eig e he'
  · intro hs
    have hs' : s.p.sep = false := by rw [e1] at hs; exact hs
    obtain ⟨f1, f2, f3⟩ := hL.full hs'
    refine ⟨by rw [e1]; exact f1, by rw [e1]; exact f2, ?_, ?_, ?_⟩
    · show s1.es.eig.isSome = true
      rcases heig hs' with ⟨_, h⟩ | ⟨_, h0, h⟩
      · rw [h]; rfl
      · rw [h]; exact (f3 h0).2
    · show ∃ c, csqinvOf s1.es s1.sol = .ok c
      unfold csqinvOf
      rcases heig hs' with ⟨hu, h⟩ | ⟨hu, h0, h⟩
      · rw [if_pos hu, h]
        exact Strat.inverseSqrt_total (fun i => eig_pos _ f2 i)
      · rw [if_neg (by simp [hu]), if_pos (by rw [e1]; exact (f3 h0).1)]
        exact ⟨_, rfl⟩
    · intro hl
      obtain ⟨a1, a2, _⟩ := hfr hs' hL.vd (Or.inr (by rw [e1] at hl; exact hl))
      refine ⟨a2, ?_⟩
      show s1.es.eig = some (env.eig.solve s1.sol.cov)
      rw [a1, e1]

namespace Surr

/-! ### Drawing -/

theorem castInt_floor {x : ℝ} (h0 : 0 ≤ x) (h1 : x < 2147483648) : castInt ((⌊x⌋ : ℤ) : ℝ) = .ok ⌊x⌋ := by
  have hf0 : (0 : ℤ) ≤ ⌊x⌋ := Int.floor_nonneg.2 h0
  have hf0' : (0 : ℝ) ≤ ((⌊x⌋ : ℤ) : ℝ) := by exact_mod_cast hf0
  unfold castInt
  rw [if_pos ⟨by linarith, lt_of_le_of_lt (Int.floor_le x) h1⟩, if_pos hf0', Int.floor_intCast]

theorem drawDistinct_mono {draw : ℕ → Out ℤ} {size : ℕ} {target : ℤ} {fuel fuel' k : ℕ} {acc : List ℕ}
    {r : List ℕ × ℕ} (hf : fuel ≤ fuel') (h : drawDistinct draw size target fuel k acc = .ok (some r)) :
    drawDistinct draw size target fuel' k acc = .ok (some r) := by
  induction fuel generalizing fuel' k acc with
  | zero =>
    unfold drawDistinct at h ⊢
    by_cases ht : target ≤ acc.length
    · rw [if_pos ht] at h ⊢; exact h
    · rw [if_neg ht] at h
      injection h with h; cases h
  | succ fuel ih =>
    obtain ⟨f', rfl⟩ : ∃ f', fuel' = f' + 1 := ⟨fuel' - 1, by omega⟩
    unfold drawDistinct at h ⊢
    by_cases ht : target ≤ acc.length
    · rw [if_pos ht] at h ⊢; exact h
    · rw [if_neg ht] at h ⊢
      simp only at h ⊢
      obtain ⟨a, ha, h⟩ := Out.bind_eq_ok.1 h
      rw [ha, Out.ok_bind]
      by_cases h0 : a < 0
      · rw [if_pos h0] at h; cases h
      · rw [if_neg h0] at h ⊢
        by_cases h1 : a < size ∧ a.toNat ∉ acc
        · rw [if_pos h1] at h ⊢; exact ih (by omega) h
        · rw [if_neg h1] at h ⊢; exact ih (by omega) h

theorem drawDistinct_none {draw : ℕ → Out ℤ} {size : ℕ} {target : ℤ} (hd : ∀ k, ∃ a, draw k = .ok a ∧ 0 ≤ a)
    (fuel k : ℕ) (acc : List ℕ) : ∃ o, drawDistinct draw size target fuel k acc = .ok o := by
  induction fuel generalizing k acc with
  | zero =>
    unfold drawDistinct
    split_ifs <;> exact ⟨_, rfl⟩
  | succ fuel ih =>
    unfold drawDistinct
    obtain ⟨a, ha, h0⟩ := hd k
    by_cases ht : target ≤ acc.length
    · rw [if_pos ht]; exact ⟨_, rfl⟩
    · rw [if_neg ht]
      simp only
      rw [ha, Out.ok_bind, if_neg (by omega)]
      split_ifs
      · exact ih _ _
      · exact ih _ _

/-- The draws end with the same result whenever they end. -/
theorem drawDistinct_cases {draw : ℕ → Out ℤ} {size : ℕ} {target : ℤ} (hd : ∀ k, ∃ a, draw k = .ok a ∧ 0 ≤ a)
    {F k : ℕ} {acc : List ℕ} {r : List ℕ × ℕ} (h : ∀ fuel ≥ F, drawDistinct draw size target fuel k acc = .ok (some r))
    (fuel : ℕ) : drawDistinct draw size target fuel k acc = .ok none ∨
      drawDistinct draw size target fuel k acc = .ok (some r) := by
  obtain ⟨o, ho⟩ := drawDistinct_none (size := size) (target := target) hd fuel k acc
  cases o with
  | none => exact Or.inl ho
  | some r' =>
    right
    have h1 := drawDistinct_mono (le_max_left fuel F) ho
    rw [h (max fuel F) (le_max_right _ _)] at h1
    rw [ho, ← h1]

theorem draw_ok {scale dev : ℝ} {z : ℕ → ℝ} (h : ∀ j, scale * |dev * z j| < 2147483648) (hs : 0 ≤ scale) (k : ℕ) :
    ∃ a, castInt (⌊scale * |dev * z k|⌋ : ℤ) = .ok a ∧ 0 ≤ a :=
  ⟨_, castInt_floor (by positivity) (h k), Int.floor_nonneg.2 (by positivity)⟩

theorem drawDistinct_reach {scale dev : ℝ} {z : ℕ → ℝ} {size : ℕ} (hr : Reaches scale dev z size) (hs : 0 ≤ scale)
    (hsz : 0 < size) {target : ℤ} (ht : target ≤ size) (k : ℕ) :
    ∃ F r, ∀ fuel ≥ F, drawDistinct (fun j => castInt (⌊scale * |dev * z j|⌋ : ℤ)) size target fuel k [0] =
      .ok (some r) := by
  have hd : ∀ j, castInt ((⌊scale * |dev * z j|⌋ : ℤ) : ℝ) = .ok ⌊scale * |dev * z j|⌋ := fun j =>
    castInt_floor (by positivity) (hr.small j)
  obtain ⟨F, r, h⟩ := drawDistinct_total (draw := fun j => castInt (⌊scale * |dev * z j|⌋ : ℤ)) (size := size)
    (target := target) (fun j => ⟨_, hd j, Int.floor_nonneg.2 (by positivity)⟩)
    (by
      intro i hi j
      obtain ⟨j', h1, h2⟩ := hr.hit i hi j
      exact ⟨j', h1, by rw [hd, h2]⟩) ht k [0]
    (by intro a ha; rw [List.mem_singleton] at ha; omega) (List.nodup_singleton 0)
  exact ⟨F, r, fun fuel hf => drawDistinct_mono hf h⟩

/-! ### Sorting -/

theorem strictWeakOn_key {α β : Type} [LinearOrder β] (lt : α → α → Prop) (l : List α) (key : α → β)
    (h : ∀ a ∈ l, ∀ b ∈ l, (lt a b ↔ key a < key b)) : StrictWeakOn lt l := by
  refine ⟨fun a ha => ?_, fun a ha b hb c hc h1 h2 => ?_, fun a ha b hb c hc h1 h2 h3 h4 => ?_⟩
  · rw [h a ha a ha]; exact lt_irrefl _
  · rw [h a ha c hc]; exact lt_trans ((h a ha b hb).1 h1) ((h b hb c hc).1 h2)
  · rw [h a ha b hb, not_lt] at h1
    rw [h b hb a ha, not_lt] at h2
    rw [h b hb c hc, not_lt] at h3
    rw [h c hc b hb, not_lt] at h4
    rw [h a ha c hc, h c hc a ha, not_lt, not_lt]
    exact ⟨h3.trans h1, h2.trans h4⟩

/-- The number inside a value. -/
noncomputable def valOf : FVal → EReal
  | .nan => 0
  | .num v => v

theorem strictWeakOn_acmLess {l : List (RCand n)} (hn : ∀ r ∈ l, r.1.fvalue.IsNum) : StrictWeakOn acmLess l := by
  refine strictWeakOn_key (β := EReal ×ₗ ℤ) _ _ (fun r => toLex (valOf r.1.fvalue, r.2)) fun a ha b hb => ?_
  have h1 := hn a ha
  have h2 := hn b hb
  rw [Prod.Lex.toLex_lt_toLex]
  unfold acmLess
  cases h3 : a.1.fvalue with
  | nan => rw [h3] at h1; simp [FVal.IsNum] at h1
  | num u =>
    cases h4 : b.1.fvalue with
    | nan => rw [h4] at h2; simp [FVal.IsNum] at h2
    | num v => rfl

theorem strictWeakOn_rcand {l : List (RCand n)} (hn : ∀ r ∈ l, r.1.fvalue.IsNum) :
    StrictWeakOn (fun a b : RCand n => FVal.lt a.1.fvalue b.1.fvalue) l :=
  (strictWeakOn_fval (fun r : RCand n => r.1.fvalue) l).2 (Or.inl hn)

theorem noNaN_push {l : ℤ} {ts cs : List (Cand n)} (h1 : NoNaN ts) (h2 : NoNaN cs) :
    NoNaN (cs.foldl (push l) ts) := by
  induction cs generalizing ts with
  | nil => exact h1
  | cons c cs ih =>
    rw [List.foldl_cons]
    refine ih ?_ fun d hd => h2 d (by simp [hd])
    have : NoNaN (ts ++ [c]) := by
      intro d hd
      rcases List.mem_append.1 hd with hd | hd
      · exact h1 d hd
      · rw [List.mem_singleton] at hd; rw [hd]; exact h2 c (by simp)
    unfold push
    split_ifs
    · exact fun d hd => this d (List.mem_of_mem_tail hd)
    · exact this

/-! ### Parts of a generation -/

theorem computeError_total {sf : SurrFuncs n M} {g} (hp : Pointwise sf g) {t : Surr n M} {test : List (Cand n)}
    (hn : NoNaN test) : ∃ e, t.computeError sf test = .ok e := by
  unfold computeError unstableSort
  rw [if_pos (strictWeakOn_desc hn), Out.ok_bind, hp, Out.ok_bind]
  exact ⟨_, rfl⟩

theorem preSelect_total {env : Env n} {sf : SurrFuncs n M} {g} (hS : Sane env sf g) {t : Surr n M}
    {cols : List (Vec n)} (hpos : 0 < cols.length) (hlam : t.s.p.lambda ≤ cols.length) (hpre : 0 ≤ t.prelambda)
    (hr : Reaches t.prelambda t.dev0 sf.z0 cols.length) :
    ∃ F nc k srt, (∀ r ∈ nc, r.1.fvalue.IsNum) ∧ nc.length = max 1 t.s.p.lambda ∧
      (∀ fuel ≥ F, t.preSelect sf fuel cols =
        .ok (some (nc, { t with n0 := k, s := { t.s with sol := { t.s.sol with cands := srt } } }))) ∧
      ∀ fuel, t.preSelect sf fuel cols = .ok none ∨ t.preSelect sf fuel cols =
        .ok (some (nc, { t with n0 := k, s := { t.s with sol := { t.s.sol with cands := srt } } })) := by
  set cs : List (Cand n) := cols.map fun x => ⟨FVal.ofReal 0, x, -1⟩ with hcs
  set pr := cs.map fun c => { c with fvalue := g t.m t.tset { t.s.sol with cands := cs } c.x } with hpr
  have hnum : NoNaN pr := by
    intro c hc
    obtain ⟨d, _, rfl⟩ := List.mem_map.1 hc
    exact hS.num_g _ _ _ _
  obtain ⟨srt, hsrt⟩ : ∃ srt, stableSort candLt pr = .ok srt := by
    unfold stableSort; rw [if_pos (strictWeakOn_of_noNaN hnum)]; exact ⟨_, rfl⟩
  have hperm := (stableSort_eq_ok hsrt).2.perm
  have hsl : srt.length = cols.length := by rw [hperm.length_eq, hpr, List.length_map, hcs, List.length_map]
  have hsn : ∀ (i : ℕ) (c : Cand n), srt[i]? = some c → c.fvalue.IsNum := fun i c h =>
    hnum c (hperm.mem_iff.1 (List.mem_of_getElem? h))
  obtain ⟨F, r, hF⟩ := drawDistinct_reach hr (by exact_mod_cast hpre) hpos (target := t.s.p.lambda)
    (by exact_mod_cast hlam) t.n0
  obtain ⟨d1, d2, d3, d4⟩ := drawDistinct_ok (acc := [0]) (List.nodup_singleton 0)
    (by intro a ha; rw [List.mem_singleton] at ha; omega) (hF F le_rfl)
  obtain ⟨c0, hc0⟩ : ∃ c0, at! srt 0 = .ok c0 :=
    ⟨srt[0]'(by omega), by rw [at!_eq_ok, List.getElem?_eq_getElem]⟩
  obtain ⟨rest, hrest⟩ : ∃ rest, (r.1.tail.mapM fun i => do
      let c ← at! srt i
      pure ((c, (i : ℤ)) : RCand n)) = .ok rest := by
    refine Out.mapM_ok_of fun i hi => ?_
    have hi' : i < srt.length := by rw [hsl]; exact d3 i (List.mem_of_mem_tail hi)
    refine ⟨(srt[i], (i : ℤ)), ?_⟩
    rw [show at! srt i = .ok srt[i] by rw [at!_eq_ok, List.getElem?_eq_getElem hi'], Out.ok_bind]
    rfl
  have hrn : ∀ q ∈ (c0, (0 : ℤ)) :: rest, q.1.fvalue.IsNum := by
    intro q hq
    rcases List.mem_cons.1 hq with rfl | hq
    · exact hsn 0 _ (at!_eq_ok.1 hc0)
    · obtain ⟨i, _, hi⟩ := Out.mapM_mem hrest hq
      obtain ⟨c, hc, hi⟩ := Out.bind_eq_ok.1 hi
      injection hi with hi
      rw [← hi]
      exact hsn i _ (at!_eq_ok.1 hc)
  have hsw := strictWeakOn_rcand hrn
  refine ⟨F, sf.usortR.sort (fun a b => FVal.lt a.1.fvalue b.1.fvalue) ((c0, (0 : ℤ)) :: rest), r.2, srt,
    ?_, ?_, fun fuel hf => ?_, fun fuel => ?_⟩
  rotate_left 2
  · unfold preSelect
    simp only
    rw [hS.predict, Out.ok_bind, hsrt, Out.ok_bind, hc0, Out.ok_bind]
    rw [hsl, hF fuel hf, Out.ok_bind]
    simp only
    rw [hrest, Out.ok_bind]
    unfold unstableSort
    rw [if_pos hsw, Out.ok_bind]
    rfl
  · rcases drawDistinct_cases (draw_ok hr.small (by exact_mod_cast hpre)) hF fuel with h | h
    · left
      unfold preSelect
      simp only
      rw [hS.predict, Out.ok_bind, hsrt, Out.ok_bind, hc0, Out.ok_bind]
      rw [hsl, h, Out.ok_bind]
      rfl
    · right
      unfold preSelect
      simp only
      rw [hS.predict, Out.ok_bind, hsrt, Out.ok_bind, hc0, Out.ok_bind]
      rw [hsl, h, Out.ok_bind]
      simp only
      rw [hrest, Out.ok_bind]
      unfold unstableSort
      rw [if_pos hsw, Out.ok_bind]
      rfl
  · intro q hq
    exact hrn q ((sf.usortR.perm _ _ hsw).mem_iff.1 hq)
  · rw [(sf.usortR.perm _ _ hsw).length_eq, List.length_cons, ← Out.mapM_length hrest, List.length_tail]
    simp only [List.length_singleton] at d4
    omega

theorem acmEvalFold_total {env : Env n} (hf : ∀ k y, (env.f k y).IsNum) {js : List ℕ}
    {q : Surr n M × List (RCand n) × List (Cand n)} (hgp : ∀ x : Vec n, ∃ y, phenoV q.1.s.p.gp x = .ok y)
    (hlt : ∀ j ∈ js, j < q.2.1.length) (h1 : ∀ r ∈ q.2.1, r.1.fvalue.IsNum) (h2 : NoNaN q.2.2) :
    ∃ q', js.foldlM (acmEvalOne env) q = .ok q' ∧ (∀ r ∈ q'.2.1, r.1.fvalue.IsNum) ∧ NoNaN q'.2.2 := by
  induction js generalizing q with
  | nil => exact ⟨q, rfl, h1, h2⟩
  | cons j js ih =>
    have hj := hlt j (by simp)
    obtain ⟨y, hy⟩ := hgp q.2.1[j].1.x
    obtain ⟨q1, hq1⟩ : ∃ q1, acmEvalOne env q j = .ok q1 := by
      unfold acmEvalOne
      rw [show at! q.2.1 j = .ok q.2.1[j] by rw [at!_eq_ok, List.getElem?_eq_getElem hj], Out.ok_bind, hy, Out.ok_bind]
      exact ⟨_, rfl⟩
    obtain ⟨c, y', _, _, e1⟩ := acmEvalOne_ok hq1
    have hv : (negIf q.1.s.negate (env.f q.1.s.calls.length y')).IsNum := negIf_isNum (hf _ _)
    obtain ⟨q', a1, a2, a3⟩ := ih (q := q1) (by rw [e1]; exact hgp)
      (by intro i hi; rw [e1]; simpa using hlt i (by simp [hi]))
      (by
        intro r hr
        rw [e1] at hr
        rcases List.mem_or_eq_of_mem_set hr with hr | rfl
        · exact h1 r hr
        · exact hv)
      (by
        intro d hd
        rw [e1] at hd
        rcases List.mem_append.1 hd with hd | hd
        · exact h2 d hd
        · rw [List.mem_singleton] at hd; rw [hd]; exact hv)
    exact ⟨q', by rw [List.foldlM_cons, hq1, Out.ok_bind, a1], a2, a3⟩

theorem evalSelected_total {env : Env n} {sf : SurrFuncs n M} {g} (hS : Sane env sf g) {t : Surr n M}
    {nc : List (RCand n)} (hgp : ∀ x : Vec n, ∃ y, phenoV t.s.p.gp x = .ok y) (hpos : 0 < nc.length)
    (hnum : ∀ r ∈ nc, r.1.fvalue.IsNum) (hlp : t.lambdaprime ≤ nc.length)
    (hr : Reaches t.s.p.lambda t.dev1 sf.z1 nc.length) :
    ∃ F t', NoNaN t'.s.sol.cands ∧ ∀ fuel ≥ F, t.evalSelected env sf fuel nc = .ok (some t') := by
  obtain ⟨F, r, hF⟩ := drawDistinct_reach hr (by positivity) hpos hlp t.n1
  obtain ⟨d1, d2, d3, d4⟩ := drawDistinct_ok (acc := [0]) (List.nodup_singleton 0)
    (by intro a ha; rw [List.mem_singleton] at ha; omega) (hF F le_rfl)
  obtain ⟨⟨t1, nc1, test⟩, f1, f2, f3⟩ := acmEvalFold_total hS.num_f (js := r.1)
    (q := (({ t with n1 := r.2 } : Surr n M), nc, [])) hgp d3 hnum (by intro c hc; cases hc)
  set nc2 := nc1.zipIdx.map (fun q =>
      if q.2 ∈ r.1 then q.1 else ({ q.1.1 with fvalue := FVal.ofReal dblMax }, q.1.2)) with hnc2
  have hn2 : ∀ a ∈ nc2, a.1.fvalue.IsNum := by
    intro a ha
    rw [hnc2] at ha
    obtain ⟨q, hq, rfl⟩ := List.mem_map.1 ha
    split_ifs
    · obtain ⟨_, _, h⟩ := List.mem_zipIdx hq
      exact f2 _ (by rw [h]; exact List.getElem_mem _)
    · simp [FVal.ofReal, FVal.IsNum]
  have hsw := strictWeakOn_acmLess hn2
  obtain ⟨e, he⟩ := computeError_total hS.predict (t := t1) (test := test) f3
  refine ⟨F, { t1.setTestError e with s := { (t1.setTestError e).s with sol := { (t1.setTestError e).s.sol with
    cands := (sf.usortR.sort acmLess nc2).map Prod.fst } } }, ?_, fun fuel hf => ?_⟩
  · intro c hc
    obtain ⟨a, ha, rfl⟩ := List.mem_map.1 hc
    exact hn2 a ((sf.usortR.perm _ _ hsw).mem_iff.1 ha)
  · unfold evalSelected
    rw [hF fuel hf, Out.ok_bind]
    simp only
    rw [f1, Out.ok_bind]
    simp only
    rw [← hnc2]
    unfold unstableSort
    rw [if_pos hsw, Out.ok_bind, he, Out.ok_bind]
    rfl

/-- What makes the next generation of an ACM surrogate strategy succeed. -/
structure AcmLive (t : Surr n M) : Prop where
  live : Live t.s
  ref : RefNum t.s
  num : t.s.niter ≠ 0 → NoNaN t.s.sol.cands
  fresh : t.s.niter = 0 → t.tset = []
  tset : NoNaN t.tset
  nsteps : t.nsteps ≠ 0

/-- What makes the pre-selection end. -/
structure Selects (sf : SurrFuncs n M) (t : Surr n M) : Prop where
  pre : (t.s.p.lambda : ℤ) ≤ t.prelambda
  prime : t.lambdaprime ≤ t.s.p.lambda
  draws0 : Reaches t.prelambda t.dev0 sf.z0 t.prelambda.toNat
  draws1 : Reaches t.s.p.lambda t.dev1 sf.z1 t.s.p.lambda

theorem begun_prelambda {t : Surr n M} (h : t.s.niter = 0 → t.tset = []) : t.begun.prelambda = t.prelambda := by
  by_cases h0 : t.s.niter = 0
  · unfold begun; rw [if_pos h0, h h0]; rfl
  · rw [begun_of_ne h0]

theorem acmTell_total {env : Env n} {sf : SurrFuncs n M} {g} (hS : Sane env sf g) {t : Surr n M}
    (hR : Ready env t.s) (hnum : NoNaN t.s.sol.cands) (hlen : t.s.sol.cands.length = t.s.p.lambda)
    (htset : NoNaN t.tset) (hns : t.nsteps ≠ 0) :
    ∃ t', t.acmTell env sf = .ok t' ∧ LiveCore t'.s.incIter := by
  obtain ⟨cs, hcs, hperm⟩ : ∃ cs, (if !t.exploit || !t.full then t.s.sol.sortCandidates else pure t.s.sol) =
      .ok { t.s.sol with cands := cs } ∧ cs.Perm t.s.sol.cands := by
    split_ifs
    · obtain ⟨cs, h⟩ : ∃ cs, stableSort candLt t.s.sol.cands = .ok cs := by
        unfold stableSort; rw [if_pos (strictWeakOn_of_noNaN hnum)]; exact ⟨_, rfl⟩
      refine ⟨cs, ?_, (stableSort_eq_ok h).2.perm⟩
      unfold Sol.sortCandidates
      rw [h]; rfl
    · exact ⟨_, rfl, .refl _⟩
  have hcl : cs.length = t.s.p.lambda := by rw [hperm.length_eq, hlen]
  obtain ⟨sol2, h2⟩ := Strat.updateBest_total (s := { t.s.sol with cands := cs }) (by
    show t.s.sol.kcand < cs.length
    rw [hcl]; exact hR.kcand)
  obtain ⟨c0, ck, cl, med, _, _, _, _, e2, _⟩ := Sol.updateBest_ok h2
  obtain ⟨sol3, h3⟩ := Strat.covarianceUpdate_total (eig := env.eig) (es := t.s.es) (s := sol2) hR.kind hR.good hR.strict
    (by rw [e2]; exact hcl) (by rw [e2]; exact hR.paths) (by rw [e2]; exact hR.sigma)
    (by rw [e2]; exact hR.sep) (by rw [e2]; exact fun h => ⟨(hR.full h).1, (hR.full h).2.2.2.1⟩)
  obtain ⟨s4, h4⟩ : ∃ s4, acmEigenv { t.s with sol := sol3 } = .ok s4 := by
    unfold acmEigenv
    rw [if_neg (by have := hR.good.dim; omega)]
    by_cases hs : t.s.p.sep = true
    · rw [if_neg (by simp [hs])]
      exact ⟨_, rfl⟩
    · rw [if_pos (by simp [hR.vd, hs])]
      obtain ⟨e, hee⟩ := Option.isSome_iff_exists.1 (hR.full (by simpa using hs)).2.2.1
      simp only [hee]
      exact ⟨_, rfl⟩
  obtain ⟨mx, mn, lv, le, e4⟩ := acmEigenv_frame h4
  have hL : LiveCore s4.incIter := by
    rw [e4]
    refine hR.live (sol3 := sol2) ?_ h3 ?_ ?_ fun h => h
    · rw [e2]; exact ⟨_, _, _, _, _, _, _, _, _, _, _, rfl⟩
    · rw [e2]; exact hcl
    · refine (updateBest_seen h2).1 ?_
      show t.s.sol.niter = 0 ∨ t.s.sol.bestSeen.isSome = true
      by_cases h0 : t.s.niter = 0
      · left; rw [hR.niter, h0]
      · exact Or.inr (hR.seen h0)
  obtain ⟨b, hb⟩ : ∃ b, ({ t with s := s4 } : Surr n M).acmDoTrain = .ok b := by
    unfold acmDoTrain
    split_ifs
    · exact ⟨_, rfl⟩
    · exact ⟨_, rfl⟩
    · exact ⟨_, rfl⟩
  unfold acmTell
  rw [hcs, Out.ok_bind, h2, Out.ok_bind, h3, Out.ok_bind, h4, Out.ok_bind]
  simp only
  rw [hb, Out.ok_bind]
  cases b with
  | false => rw [if_neg (by simp)]; exact ⟨_, rfl, hL⟩
  | true =>
    rw [if_pos rfl]
    obtain ⟨m', hm'⟩ := hS.train t.m t.tset s4.sol
    rw [hm', Out.ok_bind]
    obtain ⟨e, he⟩ := computeError_total hS.predict (t := ({ t with s := s4, m := m' } : Surr n M)) htset
    rw [he]
    exact ⟨_, rfl, hL⟩

/-- A generation of an ACM surrogate strategy succeeds, after finitely many draws, if the transform does. -/
theorem acmGeneration_total {env : Env n} {sf : SurrFuncs n M} {g} {t : Surr n M} (hS : Sane env sf g)
    (hgp : ∀ x : Vec n, ∃ y, phenoV t.s.p.gp x = .ok y) (hsel : (t.exploit && t.full) = true → Selects sf t)
    (hL : AcmLive t) :
    ∃ F t', (∀ fuel ≥ F, t.acmGeneration env sf fuel = .ok (some t')) ∧ AcmLive t' := by
  have hpl := begun_prelambda hL.fresh
  have hts : t.begun.tset = t.tset := begun_tset (by
    by_cases h0 : t.s.niter = 0
    · exact Or.inr (hL.fresh h0)
    · exact Or.inl h0)
  have hbf : t.begun.full = t.full := by
    obtain ⟨ts0, tr0, te0, sm0, pl0, e0⟩ := begun_frame t
    unfold full
    rw [hts, e0]
  have hl2 := hL.live.good.lambda
  -- the points are sampled
  obtain ⟨pop, t1, hask, hR⟩ : ∃ pop t1, t.acmAsk env = .ok (pop, t1) ∧ Ready env t1.s := by
    rw [acmAsk_eq]
    by_cases hb : (t.exploit && t.begun.full) = true
    · rw [if_pos hb, if_neg (by rw [hpl]; have := (hsel (by rw [← hbf]; exact hb)).pre; omega)]
      obtain ⟨pop, s1, h1, h2⟩ := hL.live.ready_lambda (env := env) t.begun.prelambda.toNat
      rw [h1, Out.ok_bind]
      exact ⟨_, _, rfl, h2⟩
    · rw [if_neg hb]
      obtain ⟨pop, s1, h1, h2⟩ := hL.live.toLiveCore.ready (env := env) hL.live.moved
      rw [h1, Out.ok_bind]
      exact ⟨_, _, rfl, h2⟩
  obtain ⟨⟨es, ei, ue, nz, x1, x2, p1, p2, e1⟩, hpop⟩ := acmAsk_ok hL.live.grad hask
  obtain ⟨ts0, tr0, te0, sm0, pl0, e0⟩ := begun_frame t
  have ep : t1.s.p = t.s.p := by rw [e1]
  have edev0 : t1.dev0 = t.dev0 := by rw [e1, e0]
  have edev1 : t1.dev1 = t.dev1 := by rw [e1, e0]
  have epl : t1.prelambda = t.prelambda := by rw [e1]; exact hpl
  have elp : t1.lambdaprime = t.lambdaprime := by rw [e1, e0]
  have ens : t1.nsteps = t.nsteps := by rw [e1, e0]
  have ets : t1.tset = t.tset := by rw [e1]; exact hts
  have eni : t1.s.niter = t.s.niter := by rw [e1]
  have ecs : t1.s.sol.cands = t.s.sol.cands := by rw [e1]
  have hex : t1.exploit = t.exploit := by rw [e1]; exact begun_exploit t
  have hfu : t1.full = t.begun.full := by rw [e1]; rfl
  have eref : RefNum t1.s := by rw [e1]; exact hL.ref
  obtain ⟨phen, hph⟩ : ∃ phen, t1.s.phenoCols pop = .ok phen := Out.mapM_ok_of fun x _ => by rw [ep]; exact hgp x
  have hphl : phen.length = pop.length := (Out.mapM_length hph).symm
  -- and evaluated
  suffices hev : ∃ F t2, (∀ fuel ≥ F, t1.acmEval env sf fuel pop phen = .ok (some t2)) ∧
      (∃ cl ne nu nz lr cu cs sne, t2.s = { t1.s with
        calls := cl, nevals := ne, nu := nu, nzuh := nz
        sol := { t1.s.sol with lambdaReev := lr, nevals := sne, candsUh := cu, cands := cs } }) ∧
      NoNaN t2.s.sol.cands ∧ t2.s.sol.cands.length = t.s.p.lambda ∧ NoNaN t2.tset ∧ t2.nsteps = t.nsteps by
    obtain ⟨F, t2, hev, ⟨cl, ne, nu, nz', lr, cu, cs, sne, e2⟩, hnum, hlen, hts2, hns⟩ := hev
    have hR2 : Ready env t2.s := by rw [e2]; exact hR.change
    have ep2 : t2.s.p = t.s.p := by rw [e2]; exact ep
    obtain ⟨t3, htl, h3⟩ := acmTell_total hS hR2 hnum (by rw [hlen, ep2]) hts2 (by rw [hns]; exact hL.nsteps)
    have hgen : ∀ fuel ≥ F, t.acmGeneration env sf fuel = .ok (some { t3 with s := t3.s.incIter }) := by
      intro fuel hf
      unfold acmGeneration
      rw [hask, Out.ok_bind]
      simp only
      rw [hph, Out.ok_bind, hev fuel hf, Out.ok_bind]
      simp only
      rw [htl]
      rfl
    refine ⟨F, { t3 with s := t3.s.incIter }, hgen, ?_⟩
    obtain ⟨c, added, hst⟩ := acmGeneration_step hL.live.uh hL.live.grad hL.live.cands (by omega) (hgen F le_rfl)
    obtain ⟨cs', sol2, sol3, k1, k2, k3, k4, mx, mn, lv, le, m', tr, e3⟩ := acmTell_ok htl
    have hperm : cs'.Perm t2.s.sol.cands := by
      by_cases hf : (t2.exploit && t2.full) = true
      · rw [k1 hf]
      · exact (stableSort_eq_ok (k2 (by simpa using hf))).2.perm
    have hnum' : NoNaN cs' := fun c hc => hnum c (hperm.mem_iff.1 hc)
    obtain ⟨s0, sol2', b1, b2, b3, b4, b5, b6, b7, b8, b9, b10, b11, b12⟩ := hst.best
    have hcs3 : ({ t3 with s := t3.s.incIter } : Surr n M).s.sol.cands = cs' := by
      rw [e3]
      show sol3.cands = _
      obtain ⟨csq, hc', sc, ps, hs', pc, cov, sep, v, sg, xp, xm, e4⟩ := covarianceUpdate_frame k4
      obtain ⟨_, ck, cl, med, _, _, _, _, eb, _⟩ := Sol.updateBest_ok k3
      rw [e4, eb]
    refine ⟨⟨h3, ?_, ?_⟩, ⟨fun c hc => ?_, fun c hc => ?_⟩, fun _ => ?_, fun h => ?_, ?_, ?_⟩
    · rw [hst.p]; exact hL.live.uh
    · rw [hst.p]; exact hL.live.tpa
    · rw [b8] at hc
      rcases (updateBest_seen b1).2 c hc with h | h
      · rw [b2, hcs3] at h
        exact hnum' c h
      · rw [b3] at h
        exact hL.ref.1 c h
    · rw [b11] at hc; exact hL.ref.2 c hc
    · rw [hcs3]; exact hnum'
    · rw [hst.niter] at h; omega
    · show NoNaN t3.tset
      rw [e3]; exact hts2
    · rw [hst.nsteps]; exact hL.nsteps
  unfold acmEval
  by_cases hb : (t1.exploit && t1.full) = true
  · simp only [if_pos hb]
    rw [if_pos (by rw [← hex, ← hfu]; exact hb), hpl] at hpop
    have hsl := hsel (by rw [← hbf, ← hex, ← hfu]; exact hb)
    have hpre := hsl.pre
    obtain ⟨F0, nc, k, srt, a1, a2, a3, -⟩ := preSelect_total hS (t := t1) (cols := pop) (by omega)
      (by rw [ep]; omega) (by rw [epl]; omega) (by rw [epl, edev0, hpop]; exact hsl.draws0)
    rw [ep] at a2
    have a2' : nc.length = t.s.p.lambda := by omega
    obtain ⟨F1, t2, b1, b2⟩ := evalSelected_total hS
      (t := ({ t1 with n0 := k, s := { t1.s with sol := { t1.s.sol with cands := srt } } } : Surr n M)) (nc := nc)
      (by intro x; show ∃ y, phenoV t1.s.p.gp x = _; rw [ep]; exact hgp x) (by omega) a1
      (by show t1.lambdaprime ≤ _; rw [elp, a2']; exact hsl.prime)
      (by show Reaches (t1.s.p.lambda : ℝ) t1.dev1 sf.z1 nc.length; rw [ep, edev1, a2']; exact hsl.draws1)
    obtain ⟨pr, c, E, rest, L, k0, k1, e, sol1, c1, c2, c3, c4, c5, c6, _⟩ :=
      preselected (a3 (max F0 F1) (le_max_left _ _)) (b2 (max F0 F1) (le_max_right _ _))
    refine ⟨max F0 F1, t2, fun fuel hf => ?_, ⟨_, _, _, _, _, _, _, _, by rw [c6]⟩, b1, ?_, ?_, ?_⟩
    · rw [a3 fuel (le_trans (le_max_left _ _) hf), Out.ok_bind]
      exact b2 fuel (le_trans (le_max_right _ _) hf)
    · rw [c6]
      show (L.map Prod.fst).length = _
      rw [List.length_map]; rw [ep] at c3; omega
    · rw [c6]
      refine noNaN_push (by rw [ets]; exact hL.tset) fun d hd => b1 d ?_
      rw [c6]
      obtain ⟨q, hq, rfl⟩ := List.mem_map.1 hd
      exact List.mem_map.2 ⟨q, c2.parts.mem_iff.2 (List.mem_append.2 (Or.inl hq)), rfl⟩
    · rw [c6]; exact ens
  · simp only [if_neg hb]
    rw [if_neg (by rw [← hex, ← hfu]; exact hb)] at hpop
    obtain ⟨te, sm, htest⟩ : ∃ te sm, (if t1.s.niter ≠ 0 ∧ t1.full = true then do
        let e ← t1.computeError sf t1.s.sol.cands
        pure (t1.setTestError e)
      else .ok t1) = .ok { t1 with testErr := te, smooth := sm } := by
      by_cases hc : t1.s.niter ≠ 0 ∧ t1.full = true
      · rw [if_pos hc]
        obtain ⟨e, he⟩ := computeError_total hS.predict (t := t1) (test := t1.s.sol.cands) (by
          rw [ecs]; exact hL.num (eni ▸ hc.1))
        rw [he, Out.ok_bind]
        exact ⟨_, _, rfl⟩
      · rw [if_neg hc]; exact ⟨_, _, rfl⟩
    obtain ⟨s2, hs2⟩ := Strat.eval_total (env := env) (s := t1.s) (cols := pop) (phen := phen)
      (by rw [ep]; exact hL.live.uh) (by rw [ep]; exact hl2) (by rw [ecs, ep]; exact hL.live.cands)
      (by rw [hpop, ep]) (by rw [hphl, hpop, ep]) (by
        intro hel
        rw [e1] at hel ⊢
        exact hL.live.toLiveCore.elitist hel)
    have hn2 : NoNaN s2.sol.cands := eval_noNaN (by rw [ep]; exact hL.live.uh)
      (by rw [ecs, hpop, hL.live.cands]) hS.num_f eref hs2
    obtain ⟨c, nu, nzuh, lr, cu, cs, e6, hcs, _, _⟩ := Strat.eval_frame hs2
    refine ⟨0, { t1 with testErr := te, smooth := sm, s := s2, tset := s2.sol.cands.foldl (push t1.l) t1.tset },
      fun fuel _ => ?_, ?_, ?_, ?_, ?_, ?_⟩
    rotate_left 1
    · exact ⟨_, _, _, _, _, _, _, _, e6⟩
    · exact hn2
    · show s2.sol.cands.length = _
      rw [e6]; show cs.length = _; rw [hcs, ecs]; exact hL.live.cands
    · exact noNaN_push (by rw [ets]; exact hL.tset) hn2
    · exact ens
    · rw [htest, Out.ok_bind]
      unfold evalAndCollect
      simp only
      rw [hs2, Out.ok_bind, Out.pure_eq, Out.ok_bind, foldl_add]
      rfl

theorem acmGenerations_total {env : Env n} {sf : SurrFuncs n M} {g} {t : Surr n M} (hS : Sane env sf g)
    (hgp : ∀ x : Vec n, ∃ y, phenoV t.s.p.gp x = .ok y) (hsel : Selects sf t) (hL : AcmLive t) (k : ℕ) :
    ∃ F t', (∀ fuel ≥ F, t.acmGenerations env sf fuel k = .ok (some t')) ∧ AcmLive t' := by
  induction k generalizing t with
  | zero => exact ⟨0, t, fun _ _ => rfl, hL⟩
  | succ k ih =>
    obtain ⟨F1, t1, h1, h2⟩ := acmGeneration_total hS hgp (fun _ => hsel) hL
    obtain ⟨c, added, hst⟩ := acmGeneration_step hL.live.uh hL.live.grad hL.live.cands
      (by have := hL.live.good.lambda; omega) (h1 F1 le_rfl)
    have hpl : t1.prelambda = t.prelambda := by rw [hst.prelambda]; exact begun_prelambda hL.fresh
    obtain ⟨F2, t2, h3, h4⟩ := ih (t := t1) (by rw [hst.p]; exact hgp) 
      ⟨by rw [hst.p, hpl]; exact hsel.pre, by rw [hst.p, hst.lambdaprime]; exact hsel.prime,
        by rw [hpl, hst.dev0]; exact hsel.draws0, by rw [hst.p, hst.dev1]; exact hsel.draws1⟩ h2
    refine ⟨max F1 F2, t2, fun fuel hf => ?_, h4⟩
    unfold acmGenerations
    rw [h1 fuel (le_trans (le_max_left _ _) hf), Out.ok_bind]
    exact h3 fuel (le_trans (le_max_right _ _) hf)

/-- With more candidates to evaluate than there are, the evaluation never ends. -/
theorem acmGeneration_hangs {env : Env n} {sf : SurrFuncs n M} {g} {t : Surr n M} (hS : Sane env sf g)
    (hgp : ∀ x : Vec n, ∃ y, phenoV t.s.p.gp x = .ok y) (hf : (t.exploit && t.full) = true)
    (hpre : (t.s.p.lambda : ℤ) ≤ t.prelambda) (hprime : (t.s.p.lambda : ℤ) < t.lambdaprime)
    (hr0 : Reaches t.prelambda t.dev0 sf.z0 t.prelambda.toNat)
    (hr1 : ∀ j, (t.s.p.lambda : ℝ) * |t.dev1 * sf.z1 j| < 2147483648) (hL : AcmLive t) (fuel : ℕ) :
    t.acmGeneration env sf fuel = .ok none := by
  have hpl := begun_prelambda hL.fresh
  have hts : t.begun.tset = t.tset := begun_tset (by
    by_cases h0 : t.s.niter = 0
    · exact Or.inr (hL.fresh h0)
    · exact Or.inl h0)
  have hbf : t.begun.full = t.full := by
    obtain ⟨ts0, tr0, te0, sm0, pl0, e0⟩ := begun_frame t
    unfold full
    rw [hts, e0]
  have hl2 := hL.live.good.lambda
  obtain ⟨pop, t1, hask⟩ : ∃ pop t1, t.acmAsk env = .ok (pop, t1) := by
    rw [acmAsk_eq]
    rw [if_pos (by rw [hbf]; exact hf), if_neg (by rw [hpl]; omega)]
    obtain ⟨pop, s1, h1, h2⟩ := hL.live.ready_lambda (env := env) t.begun.prelambda.toNat
    rw [h1, Out.ok_bind]
    exact ⟨_, _, rfl⟩
  obtain ⟨⟨es, ei, ue, nz, x1, x2, p1, p2, e1⟩, hpop⟩ := acmAsk_ok hL.live.grad hask
  obtain ⟨ts0, tr0, te0, sm0, pl0, e0⟩ := begun_frame t
  have ep : t1.s.p = t.s.p := by rw [e1]
  have edev0 : t1.dev0 = t.dev0 := by rw [e1, e0]
  have edev1 : t1.dev1 = t.dev1 := by rw [e1, e0]
  have epl : t1.prelambda = t.prelambda := by rw [e1]; exact hpl
  have elp : t1.lambdaprime = t.lambdaprime := by rw [e1, e0]
  have hfu : (t1.exploit && t1.full) = true := by
    have h1 : t1.exploit = t.exploit := by rw [e1]; exact begun_exploit t
    have h2 : t1.full = t.begun.full := by rw [e1]; rfl
    rw [h1, h2, hbf]; exact hf
  obtain ⟨phen, hph⟩ : ∃ phen, t1.s.phenoCols pop = .ok phen := Out.mapM_ok_of fun x _ => by rw [ep]; exact hgp x
  rw [if_pos (by rw [hbf]; exact hf), hpl] at hpop
  obtain ⟨F0, nc, k, srt, a1, a2, -, a3⟩ := preSelect_total hS (t := t1) (cols := pop) (by omega)
    (by rw [ep]; omega) (by rw [epl]; omega) (by rw [epl, edev0, hpop]; exact hr0)
  rw [ep] at a2
  have hev : t1.acmEval env sf fuel pop phen = .ok none := by
    unfold acmEval
    rw [if_pos hfu]
    rcases a3 fuel with h | h
    · rw [h]; rfl
    · rw [h, Out.ok_bind]
      simp only
      unfold evalSelected
      simp only
      obtain ⟨o, ho⟩ := drawDistinct_none (size := nc.length) (target := t1.lambdaprime)
        (draw_ok (scale := (t1.s.p.lambda : ℝ)) (dev := t1.dev1) (z := sf.z1) (by rw [ep, edev1]; exact hr1)
          (by positivity)) fuel t1.n1 [0]
      cases o with
      | none => rw [ho]; rfl
      | some r =>
        refine absurd ho (drawDistinct_never (List.nodup_singleton 0) ?_ ?_ r)
        · intro a ha; rw [List.mem_singleton] at ha; omega
        · rw [elp]; omega
  unfold acmGeneration
  rw [hask, Out.ok_bind]
  simp only
  rw [hph, Out.ok_bind, hev]
  rfl

/-- A strategy at the start. -/
theorem acmStart_ok {env : Env n} {kind : CovKind} {p : Params n} {m : M} {t : Surr n M}
    (h : AcmStart env kind p m t) : (∃ s cr, Strat.new env kind p = .ok s ∧ t.s = { s with crit := cr } ∧
        cr = setCriteriaActive s.crit 6 false) ∧
      t.m = m ∧ t.tset = [] ∧ t.smooth = some 0.5 ∧ t.nsteps ≠ 0 ∧ t.dev0 = 0.4 * 0.4 ∧ t.dev1 = 0.8 * 0.8 := by
  induction h with
  | new h =>
    unfold newAcm new at h
    obtain ⟨t0, h0, h⟩ := Out.bind_eq_ok.1 h
    obtain ⟨s, hs, h0⟩ := Out.bind_eq_ok.1 h0
    injection h with h
    injection h0 with h0
    subst h0; subst h
    exact ⟨⟨s, _, hs, rfl, rfl⟩, rfl, rfl, rfl, by show (1 : ℤ) ≠ 0; norm_num, rfl, rfl⟩
  | setL l _ ih => exact ih
  | setExploit b _ ih => exact ih
  | setNsteps k hk _ ih => exact ⟨ih.1, ih.2.1, ih.2.2.1, ih.2.2.2.1, hk, ih.2.2.2.2.2⟩
  | setLambdaprime k _ ih => exact ih
  | setPrelambda k _ ih => exact ih
  | setTheta0 k _ ih => exact ih
  | setTheta1 k _ ih => exact ih

theorem acmLive_start {env : Env n} {kind : CovKind} {p : Params n} {m : M} {t : Surr n M} (hu : Usual kind p)
    (h : AcmStart env kind p m t) : AcmLive t := by
  obtain ⟨⟨s, cr, hs, e, _⟩, h1, h2, h3, h4, h5, h6⟩ := acmStart_ok h
  obtain ⟨hL, hr⟩ := live_new hu hs
  have h0 : t.s.niter = 0 := by rw [e]; exact (Strat.new_ok hs).2.2.2.2.2.2.1
  refine ⟨?_, ?_, fun h => absurd h0 h, fun _ => h2, (by rw [h2]; intro c hc; cases hc), h4⟩
  · rw [e]
    exact ⟨⟨hL.good, hL.strict, hL.kind, hL.vd, hL.lazy, hL.grad, hL.tpaPos, hL.eig, hL.paths, hL.sigma, hL.cands,
      hL.kcand, hL.niter, hL.full, hL.sep, hL.seen, hL.init⟩, hL.uh, hL.tpa⟩
  · rw [e]; exact hr

theorem newAcm_exists {env : Env n} {kind : CovKind} {p : Params n} {s : Strat n}
    (h : Strat.new env kind p = .ok s) (m : M) : ∃ t, newAcm env kind p m = .ok t ∧ t.prelambda = 50 * p.lambda ∧
      t.lambdaprime = ⌊(p.lambda : ℝ) / 3⌋ ∧ t.l = ⌊30 * Real.sqrt n⌋ ∧ t.exploit = true := by
  unfold newAcm new
  rw [h, Out.ok_bind]
  have hlam : s.p.lambda = p.lambda := by rw [(Strat.new_ok h).2.2.2.1]
  refine ⟨_, rfl, ?_, ?_, rfl, rfl⟩
  · show 50 * (s.p.lambda : ℤ) = _
    rw [hlam]
  · show ⌊(s.p.lambda : ℝ) / 3⌋ = _
    rw [hlam]

end Surr

end Libcmaes
