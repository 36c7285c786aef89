import Verif.Lemmas.Contour
import Verif.Lemmas.ErrStatsWit

/-!
# Lemmas for contours: an example

Three parameters; the objective is the square of the greater distance of the first two from `p`, `q`, plus the square of
the third.
-/

namespace Libcmaes

namespace ErrStats

/-- The objective max(|x-p|,|y-q|)² + z². -/
noncomputable def tub (p q : ℝ) : List ℝ → FVal
  | [x, y, z] => FVal.ofReal (max |x - p| |y - q| ^ 2 + z ^ 2)
  | _ => FVal.nan

open Classical in
/-- Inner optimisations that answer `pt no d` in dimension `d`, if that is a minimum, and abort otherwise. -/
noncomputable def oracle (pt : ℕ → ℕ → List ℝ) : Inner := fun no g x0 _ _ =>
  if (pt no x0.length).length = x0.length ∧ ∀ y : List ℝ, y.length = x0.length → FVal.le (g (pt no x0.length)) (g y) then
    .ok ⟨g (pt no x0.length), pt no x0.length, 1, 0⟩
  else .error .fatal

theorem oracle_exact (pt : ℕ → ℕ → List ℝ) : Inner.Exact (oracle pt) := by
  intro no g x0 σ r h
  unfold oracle at h
  split_ifs at h with hc
  obtain rfl := Except.ok.inj h
  exact ⟨hc.1, rfl, hc.2⟩

/-- The answers of the example: the third parameter alone; or, in the first four optimisations, with one of the first two. -/
noncomputable def tubPt (p q : ℝ) (no d : ℕ) : List ℝ := if d = 1 then [0] else if no < 2 then [q, 0] else [p, 0]

/-- The example: the optimum is `(p,q,0)`. -/
noncomputable def tubArgs (p q : ℝ) (sz : ℕ → Bool) : ContourArgs 3 where
  f := tub p q
  px := 0
  py := 1
  fup := 1
  p := exParams 3
  sol := exSol 1 ⟨FVal.ofReal 0, ![p, q, 0], 0⟩
  delta := 0.1
  maxiters := 10000
  innerX := oracle (tubPt p q)
  innerY := oracle (tubPt p q)
  inner := oracle (tubPt p q)
  sz := sz

variable {p q : ℝ}

theorem tub_le (x y z : ℝ) : FVal.le (tub p q [x, y, 0]) (tub p q [x, y, z]) := by
  unfold tub
  rw [FVal.le_ofReal]
  nlinarith [sq_nonneg z]

/-- The value of the example with the first two parameters fixed. -/
noncomputable def tubVal (p q : ℝ) (v : ℝ × ℝ) : ℝ := max |v.1 - p| |v.2 - q| ^ 2

theorem opt_tub {c : Crossing 3} (hf : c.f = tub p q) (hi : c.inner = oracle (tubPt p q)) (hp : c.p = exParams 3) (hx : c.px = 0)
    (hy : c.py = 1) (no : ℕ) (d : Cand 3) (cands : List (Cand 3)) (v : ℝ × ℝ) : c.opt no (d :: cands) v =
      .ok ⟨(FVal.ofReal (tubVal p q v), [v.1, v.2, 0]), (FVal.ofReal (tubVal p q v), [v.1, v.2, 0]), 1, 0⟩ := by
  have hor : ∀ (σ : ℝ) (z : ℝ), oracle (tubPt p q) no (rfunc (tub p q) [0, 1] [v.1, v.2, 0]) [z] σ GenoPheno.plain =
      .ok ⟨FVal.ofReal (tubVal p q v), [0], 1, 0⟩ := by
    intro σ z
    unfold oracle
    have e : ∀ w : ℝ, rfunc (tub p q) [0, 1] [v.1, v.2, 0] [w] = tub p q [v.1, v.2, w] := fun _ => rfl
    have e1 : tubPt p q no [z].length = [0] := rfl
    rw [e1, if_pos]
    · rw [e]
      unfold tub tubVal
      simp
    · refine ⟨rfl, fun y hy => ?_⟩
      obtain ⟨w, rfl⟩ := List.length_eq_one_iff.1 hy
      rw [e, e]
      exact tub_le _ _ _
  unfold Crossing.opt optimizeVpk
  rw [hf, hi, hp, hx, hy]
  have hx0 : List.ofFn (exParams 3).x0min = [0, 0, 0] := rfl
  rw [hx0]
  show (oracle (tubPt p q) no (rfunc (tub p q) [0, 1] [v.1, v.2, 0]) [0] _ GenoPheno.plain >>= fun r => _) = _
  rw [hor, Out.ok_bind]
  rfl

/-- The call of `cross` for the fifth point. -/
structure TubCross (p q : ℝ) (c : Crossing 3) : Prop where
  f : c.f = tub p q
  inner : c.inner = oracle (tubPt p q)
  par : c.p = exParams 3
  px : c.px = 0
  py : c.py = 1
  cands : c.cands = [⟨FVal.ofReal 0, ![p, q, 0], 0⟩]
  minf : c.minf = FVal.ofReal 0
  fup : c.fup = 1
  ftol : c.ftol = 1e-12
  mid : c.mid = (p - 0.5, q + 0.5)
  dir : c.dir = (-2, 2)

/-- A solution of `optimize_vpk` in the example. -/
noncomputable def tubSol (p q : ℝ) (v : ℝ × ℝ) : VpkRes :=
  ⟨(FVal.ofReal (tubVal p q v), [v.1, v.2, 0]), (FVal.ofReal (tubVal p q v), [v.1, v.2, 0]), 1, 0⟩

theorem tubVal_line {c : Crossing 3} (h : TubCross p q c) (a : ℝ) :
    tubVal p q (c.at' a) = (0.5 + 2 * a) ^ 2 := by
  unfold tubVal Crossing.at'
  rw [h.mid, h.dir]
  simp only
  rw [show p - 0.5 + a * -2 - p = -(0.5 + 2 * a) by ring, show q + 0.5 + a * 2 - q = 0.5 + 2 * a by ring, abs_neg, max_self,
    sq_abs]

theorem begin_tub {c : Crossing 3} (h : TubCross p q c) (no : ℕ) : c.begin no = .ok (⟨![0, 1, 0],
    ![FVal.ofReal 0.25, FVal.ofReal 6.25, FVal.ofReal 0], ![tubSol p q c.mid, tubSol p q (c.at' 1), tubSol p q (c.at' 1)],
    FVal.ofReal 6, FVal.ofReal 1e-12, 2, 0, no + 2⟩, tubSol p q (c.at' 1)) := by
  have hopt := fun no v => opt_tub h.f h.inner h.par h.px h.py no ⟨FVal.ofReal 0, ![p, q, 0], 0⟩ [] v
  have h0 : tubVal p q c.mid = 0.25 := by
    have := tubVal_line h 0
    rw [show c.at' 0 = c.mid by unfold Crossing.at'; simp] at this
    rw [this]
    norm_num
  have h1 : tubVal p q (c.at' 1) = 6.25 := by rw [tubVal_line h]; norm_num
  unfold Crossing.begin
  rw [h.cands, hopt, Out.ok_bind]
  simp only
  rw [h0, h.minf, h.fup, h.ftol, FVal.add_ofReal, FVal.stdMax_ofReal, FVal.sub_ofReal, FVal.div_ofReal (by norm_num),
    FVal.sqrt_ofReal (by norm_num), FVal.sub_ofReal]
  have e1 : max 0.25 (0 + 0.1 * 1 : ℝ) = 0.25 := by norm_num
  have e2 : Real.sqrt (1 / (0.25 - 0)) - 1 = 1 := by
    rw [show (1 : ℝ) / (0.25 - 0) = 2 ^ 2 by norm_num, Real.sqrt_sq (by norm_num)]
    norm_num
  rw [e1, e2, if_neg (by rw [FVal.lt_ofReal]; norm_num), if_neg (by rw [FVal.lt_ofReal]; norm_num), FVal.finite_ofReal,
    Out.ok_bind, hopt, Out.ok_bind]
  simp only
  rw [h1, FVal.sub_ofReal, FVal.div_ofReal (by norm_num), show ((6.25 : ℝ) - 0.25) / (1 - 0) = 6 by norm_num]
  have e3 : ∀ v, tubSol p q v = ⟨(FVal.ofReal (tubVal p q v), [v.1, v.2, 0]),
    (FVal.ofReal (tubVal p q v), [v.1, v.2, 0]), 1, 0⟩ := fun _ => rfl
  rw [e3, e3, h0, h1]
  rfl

theorem rankStep_real {A v m M : ℝ} {fl : Fin 3 → FVal} {i ib iw : Fin 3} {k : ℕ} (h : fl i = FVal.ofReal v) :
    Crossing.rankStep (FVal.ofReal A) fl ⟨FVal.ofReal m, FVal.ofReal M, ib, iw, k⟩ i =
      ⟨FVal.ofReal (if |v - A| < m then |v - A| else m), FVal.ofReal (if M < |v - A| then |v - A| else M),
        if |v - A| < m then i else ib, if M < |v - A| then i else iw, if v < A then k + 1 else k⟩ := by
  simp only [Crossing.rankStep, h, FVal.sub_ofReal, FVal.abs_ofReal, FVal.lt_ofReal]
  by_cases h1 : M < |v - A| <;> by_cases h2 : |v - A| < m <;> by_cases h3 : v < A <;> simp [h1, h2, h3, FVal.lt_ofReal]

theorem rank_tub : Crossing.rank (FVal.ofReal 1) ![FVal.ofReal 0.25, FVal.ofReal 6.25, FVal.ofReal 0.5625] =
    ⟨FVal.ofReal 0.4375, FVal.ofReal 5.25, 2, 1, 2⟩ := by
  have a0 : |(0.25 : ℝ) - 1| = 0.75 := by norm_num [abs_of_neg]
  have a1 : |(6.25 : ℝ) - 1| = 5.25 := by norm_num [abs_of_pos]
  have a2 : |(0.5625 : ℝ) - 1| = 0.4375 := by norm_num [abs_of_neg]
  unfold Crossing.rank
  rw [show (![FVal.ofReal 0.25, FVal.ofReal 6.25, FVal.ofReal 0.5625] : Fin 3 → FVal) 2 = FVal.ofReal 0.5625 from rfl,
    FVal.sub_ofReal, FVal.abs_ofReal, a2, List.foldl_cons, rankStep_real (v := 0.25) rfl, a0, List.foldl_cons,
    rankStep_real (v := 6.25) rfl, a1, List.foldl_cons, rankStep_real (v := 0.5625) rfl, a2, List.foldl_nil]
  norm_num

theorem refp_tub : Crossing.refp (FVal.ofReal 1) ![FVal.ofReal 0.25, FVal.ofReal 6.25, FVal.ofReal 0.5625]
    ⟨FVal.ofReal 0.4375, FVal.ofReal 5.25, 2, 1, 2⟩ = some 1 := by
  have a0 : |(0.25 : ℝ) - 1| = 0.75 := by norm_num [abs_of_neg]
  have a1 : |(6.25 : ℝ) - 1| = 5.25 := by norm_num [abs_of_pos]
  have e0 : (![FVal.ofReal 0.25, FVal.ofReal 6.25, FVal.ofReal 0.5625] : Fin 3 → FVal) 0 = FVal.ofReal 0.25 := rfl
  have e1 : (![FVal.ofReal 0.25, FVal.ofReal 6.25, FVal.ofReal 0.5625] : Fin 3 → FVal) 1 = FVal.ofReal 6.25 := rfl
  have e2 : (![FVal.ofReal 0.25, FVal.ofReal 6.25, FVal.ofReal 0.5625] : Fin 3 → FVal) 2 = FVal.ofReal 0.5625 := rfl
  unfold Crossing.refp
  simp only [List.foldl_cons, List.foldl_nil, Crossing.refStep, e0, e1, e2, FVal.sub_ofReal, FVal.abs_ofReal, FVal.lt_ofReal,
    FVal.le_ofReal, a0, a1]
  norm_num [FVal.le_ofReal]
  rw [if_neg (by decide)]

theorem cross_tub {c : Crossing 3} (h : TubCross p q c) (fuel no : ℕ) : c.cross (fuel + 2) no = (do
    match ← c.lineLoop (-(|p - 0.75| * 0.1), |q + 0.75| * 0.1) fuel (p - 0.75, q + 0.75) (tubSol p q (p - 0.75, q + 0.75)) (no + 3) with
    | none => pure none
    | some sol => do
      let y ← c.pheno sol.cand.2
      pure (some ⟨sol.cand.1, 3, y⟩)) := by
  unfold Crossing.cross
  rw [begin_tub h, Out.ok_bind]
  simp only
  rw [Crossing.loop]
  simp only
  rw [if_neg (by rw [FVal.lt_ofReal]; norm_num), Out.pure_eq, Out.ok_bind, Crossing.loop]
  have haim : c.aim = FVal.ofReal 1 := by unfold Crossing.aim; rw [h.minf, h.fup, FVal.add_ofReal]; norm_num
  have hopt := fun no v => opt_tub h.f h.inner h.par h.px h.py no ⟨FVal.ofReal 0, ![p, q, 0], 0⟩ [] v
  have hat : c.at' 0.125 = (p - 0.75, q + 0.75) := by
    unfold Crossing.at'
    rw [h.mid, h.dir]
    ext
    · simp only; norm_num; ring
    · simp only; norm_num; ring
  have h3 : tubVal p q (p - 0.75, q + 0.75) = 0.5625 := by rw [← hat, tubVal_line h]; norm_num
  have ht : ∀ s : Crossing.St, s.al 0 = 0 → s.al 1 = 1 → s.fl 0 = FVal.ofReal 0.25 → s.fl 1 = FVal.ofReal 6.25 →
      s.dfda = FVal.ofReal 6 → (c.third s).1 = FVal.ofReal 0.125 ∧ ¬ (c.third s).2.2 := by
    intro s e1 e2 e3 e4 e5
    constructor
    · simp only [Crossing.third, haim, e2, e4, e5, FVal.sub_ofReal]
      rw [FVal.div_ofReal (by norm_num), FVal.add_ofReal]
      norm_num
    · rintro ⟨_, hlt⟩
      simp only [haim, e3, e4, FVal.sub_ofReal, FVal.abs_ofReal, FVal.stdMin_ofReal, FVal.lt_ofReal, h.ftol, h.fup] at hlt
      have : min |(1 : ℝ) - 0.25| |1 - 6.25| = 0.75 := by norm_num [abs_of_pos, abs_of_neg]
      rw [this] at hlt
      norm_num at hlt
  have hlim : ∀ s : Crossing.St, s.al 0 = 0 → s.al 1 = 1 → Crossing.limited s (FVal.ofReal 0.125) = FVal.ofReal 0.125 := by
    intro s e1 e2
    unfold Crossing.limited
    have h1 : ¬ FVal.lt (FVal.ofReal 0.125) (FVal.ofReal (min 0 1 - 1)) := by rw [FVal.lt_ofReal]; norm_num
    simp only [e1, e2]
    rw [if_neg h1, if_neg (by rw [FVal.lt_ofReal]; norm_num)]
  generalize hs : (Crossing.St.mk _ _ _ _ _ _ _ _) = s
  have q0 : s.al 0 = 0 := by rw [← hs]; rfl
  have q1 : s.al 1 = 1 := by rw [← hs]; rfl
  have q2 : s.fl 0 = FVal.ofReal 0.25 := by rw [← hs]; rfl
  have q3 : s.fl 1 = FVal.ofReal 6.25 := by rw [← hs]; rfl
  have q4 : s.dfda = FVal.ofReal 6 := by rw [← hs]
  have q5 : s.sols 1 = tubSol p q (c.at' 1) := by rw [← hs]; rfl
  have q6 : s.nfcn = 2 := by rw [← hs]
  have q7 : s.no = no + 2 := by rw [← hs]
  obtain ⟨t1, t2⟩ := ht s q0 q1 q2 q3 q4
  simp only
  rw [if_neg t2, t1, hlim s q0 q1, FVal.finite_ofReal, Out.ok_bind, h.cands, hopt, Out.ok_bind]
  simp only
  rw [hat, h3, haim, q2, q3, rank_tub, if_pos (Or.inr rfl)]
  unfold Crossing.between
  rw [haim]
  simp only
  rw [refp_tub]
  simp only
  have hp : ∀ x y : ℝ, c.pheno [x, y, 0] = .ok [x, y, 0] := by
    intro x y
    unfold Crossing.pheno
    rw [h.par]
    rfl
  have m1 : (![s.sols 0, s.sols 1, tubSol p q (p - 0.75, q + 0.75)] : Fin 3 → VpkRes) 1 = tubSol p q (c.at' 1) := q5
  have m2 : (![s.sols 0, s.sols 1, tubSol p q (p - 0.75, q + 0.75)] : Fin 3 → VpkRes) 2 = tubSol p q (p - 0.75, q + 0.75) := rfl
  have e3 : (⟨(FVal.ofReal 0.5625, [p - 0.75, q + 0.75, 0]), (FVal.ofReal 0.5625, [p - 0.75, q + 0.75, 0]), 1, 0⟩ : VpkRes) =
    tubSol p q (p - 0.75, q + 0.75) := by unfold tubSol; rw [h3]
  simp only [e3, m1, m2]
  unfold tubSol
  simp only [hp, Out.ok_bind, h.px, h.py, h3]
  have i0 : ∀ x y : ℝ, idx [x, y, 0] 0 = .ok x := fun _ _ => rfl
  have i1 : ∀ x y : ℝ, idx [x, y, 0] 1 = .ok y := fun _ _ => rfl
  simp only [i0, i1, Out.ok_bind]
  rw [if_pos (show FVal.lt (FVal.ofReal 0.5625) (FVal.ofReal 1) by rw [FVal.lt_ofReal]; norm_num)]
  have hat1 : c.at' 1 = (p - 2.5, q + 2.5) := by
    unfold Crossing.at'
    rw [h.mid, h.dir]
    ext
    · simp only; norm_num; ring
    · simp only; norm_num; ring
  rw [hat1]
  simp only
  rw [if_neg (by norm_num), if_pos (by norm_num), q6, q7, show no + 2 + 1 = no + 3 from rfl,
    show (-1 * |p - 0.75| * 0.1 : ℝ) = -(|p - 0.75| * 0.1) by ring, one_mul]
  rfl

theorem lineLoop_tub_far {c : Crossing 3} (h : TubCross 100 100 c) (fuel no : ℕ) (sol : VpkRes) :
    c.lineLoop (-(|100 - 0.75| * 0.1), |100 + 0.75| * 0.1) (fuel + 1) (100 - 0.75, 100 + 0.75) sol no = .ok (some sol) := by
  have haim : c.aim = FVal.ofReal 1 := by unfold Crossing.aim; rw [h.minf, h.fup, FVal.add_ofReal]; norm_num
  unfold Crossing.lineLoop
  simp only
  rw [opt_tub h.f h.inner h.par h.px h.py, Out.ok_bind, haim, if_pos]
  · rfl
  · simp only [FVal.lt_ofReal, tubVal]
    have h1 : (10 : ℝ) ≤ |100 - 0.75 + -(|100 - 0.75| * 0.1) - 100| := by norm_num [abs_of_pos, abs_of_neg]
    have h2 := h1.trans (le_max_left _ |(100 : ℝ) + 0.75 + |100 + 0.75| * 0.1 - 100|)
    nlinarith

theorem lineLoop_tub_stuck {c : Crossing 3} (h : TubCross 0.75 (-0.75) c) : ∀ (fuel no : ℕ) (sol : VpkRes),
    c.lineLoop (-(|(0.75 : ℝ) - 0.75| * 0.1), |(-0.75 : ℝ) + 0.75| * 0.1) fuel ((0.75 : ℝ) - 0.75, (-0.75 : ℝ) + 0.75) sol no =
      .ok none
  | 0, _, _ => rfl
  | fuel + 1, no, sol => by
    have haim : c.aim = FVal.ofReal 1 := by unfold Crossing.aim; rw [h.minf, h.fup, FVal.add_ofReal]; norm_num
    have ih := fun no sol => lineLoop_tub_stuck h fuel no sol
    have e1 : (0.75 : ℝ) - 0.75 + -(|(0.75 : ℝ) - 0.75| * 0.1) = 0.75 - 0.75 := by norm_num
    have e2 : (-0.75 : ℝ) + 0.75 + |(-0.75 : ℝ) + 0.75| * 0.1 = -0.75 + 0.75 := by norm_num
    unfold Crossing.lineLoop
    simp only
    rw [opt_tub h.f h.inner h.par h.px h.py, Out.ok_bind, haim, if_neg, e1, e2, ih]
    rw [e1, e2, FVal.lt_ofReal]
    unfold tubVal
    norm_num

/-- The first four points of the example. -/
theorem firstPoints_tub (sz : ℕ → Bool) {plx ply : Pli 3} (h1 : plx.errmin = -1) (h2 : plx.errmax = 1) (h3 : ply.errmin = -1)
    (h4 : ply.errmax = 1) : firstPoints (tubArgs p q sz) plx ply = .ok [(p - 1, q), (p, q - 1), (p + 1, q), (p, q + 1)] := by
  have hs : ∀ (no : ℕ) (s : ℝ), |s| = 1 → no < 2 → sidePoint (tubArgs p q sz) no 0 (p + s) = .ok ![p + s, q, 0] := by
    intro no s hs hno
    have hor : ∀ (σ : ℝ), oracle (tubPt p q) no (rfunc (tub p q) [0] [p + s, 0, 0]) [0, 0] σ GenoPheno.plain =
        .ok ⟨rfunc (tub p q) [0] [p + s, 0, 0] [q, 0], [q, 0], 1, 0⟩ := by
      intro σ
      unfold oracle
      have e : ∀ w z : ℝ, rfunc (tub p q) [0] [p + s, 0, 0] [w, z] = tub p q [p + s, w, z] := fun _ _ => rfl
      have e1 : tubPt p q no [(0 : ℝ), 0].length = [q, 0] := by unfold tubPt; simp [hno]
      rw [e1, if_pos]
      refine ⟨rfl, fun y hy => ?_⟩
      obtain ⟨w, z, rfl⟩ := List.length_eq_two.1 hy
      rw [e, e]
      unfold tub
      rw [FVal.le_ofReal, add_sub_cancel_left, hs, sub_self, abs_zero, max_eq_left (by norm_num)]
      have : (1 : ℝ) ≤ max 1 |w - q| := le_max_left _ _
      nlinarith [sq_nonneg z]
    have hopt : optimizeVpk (tub p q) (oracle (tubPt p q)) no (exParams 3).gp (tubArgs p q sz).sol.cands [(0, p + s)]
        (List.ofFn (exParams 3).x0min) true true = .ok ⟨(rfunc (tub p q) [0] [p + s, 0, 0] [q, 0], [p + s, q, 0]),
          (rfunc (tub p q) [0] [p + s, 0, 0] [q, 0], [p + s, q, 0]), 1, 0⟩ := by
      unfold optimizeVpk
      rw [show List.ofFn (exParams 3).x0min = [0, 0, 0] from rfl]
      show (oracle (tubPt p q) no (rfunc (tub p q) [0] [p + s, 0, 0]) [0, 0] _ GenoPheno.plain >>= fun r => _) = _
      rw [hor, Out.ok_bind]
      rfl
    refine (congrArg (· >>= fun r => toVec 3 r.best.2 >>= phenoV GenoPheno.plain) hopt).trans ?_
    show Except.ok _ = _
    congr 1
    funext i
    fin_cases i <;> rfl
  have ht : ∀ (no : ℕ) (s : ℝ), |s| = 1 → ¬ no < 2 → sidePoint (tubArgs p q sz) no 1 (q + s) = .ok ![p, q + s, 0] := by
    intro no s hs hno
    have hor : ∀ (σ : ℝ), oracle (tubPt p q) no (rfunc (tub p q) [1] [0, q + s, 0]) [0, 0] σ GenoPheno.plain =
        .ok ⟨rfunc (tub p q) [1] [0, q + s, 0] [p, 0], [p, 0], 1, 0⟩ := by
      intro σ
      unfold oracle
      have e : ∀ w z : ℝ, rfunc (tub p q) [1] [0, q + s, 0] [w, z] = tub p q [w, q + s, z] := fun _ _ => rfl
      have e1 : tubPt p q no [(0 : ℝ), 0].length = [p, 0] := by unfold tubPt; simp [hno]
      rw [e1, if_pos]
      refine ⟨rfl, fun y hy => ?_⟩
      obtain ⟨w, z, rfl⟩ := List.length_eq_two.1 hy
      rw [e, e]
      unfold tub
      rw [FVal.le_ofReal, add_sub_cancel_left, hs, sub_self, abs_zero, max_eq_right (by norm_num)]
      have : (1 : ℝ) ≤ max |w - p| 1 := le_max_right _ _
      nlinarith [sq_nonneg z]
    have hopt : optimizeVpk (tub p q) (oracle (tubPt p q)) no (exParams 3).gp (tubArgs p q sz).sol.cands [(1, q + s)]
        (List.ofFn (exParams 3).x0min) true true = .ok ⟨(rfunc (tub p q) [1] [0, q + s, 0] [p, 0], [p, q + s, 0]),
          (rfunc (tub p q) [1] [0, q + s, 0] [p, 0], [p, q + s, 0]), 1, 0⟩ := by
      unfold optimizeVpk
      rw [show List.ofFn (exParams 3).x0min = [0, 0, 0] from rfl]
      show (oracle (tubPt p q) no (rfunc (tub p q) [1] [0, q + s, 0]) [0, 0] _ GenoPheno.plain >>= fun r => _) = _
      rw [hor, Out.ok_bind]
      rfl
    refine (congrArg (· >>= fun r => toVec 3 r.best.2 >>= phenoV GenoPheno.plain) hopt).trans ?_
    show Except.ok _ = _
    congr 1
    funext i
    fin_cases i <;> rfl
  have hx : phenoV (tubArgs p q sz).p.gp (tubArgs p q sz).sol.bestCandidate.x = .ok ![p, q, 0] := phenoV_plain _
  have b0 : (![p, q, 0] : Vec 3) (tubArgs p q sz).px = p := rfl
  have b1 : (![p, q, 0] : Vec 3) (tubArgs p q sz).py = q := rfl
  unfold firstPoints
  rw [hx, Out.ok_bind]
  simp only [b0, b1, h1, h2, h3, h4]
  rw [show (tubArgs p q sz).px = 0 from rfl, show (tubArgs p q sz).py = 1 from rfl, hs 0 1 (by norm_num) (by norm_num), Out.ok_bind,
    hs 1 (-1) (by norm_num) (by norm_num), Out.ok_bind, ht 2 1 (by norm_num) (by norm_num), Out.ok_bind,
    ht 3 (-1) (by norm_num) (by norm_num), Out.ok_bind]
  rfl

/-- All edges of the square are equally long. -/
theorem farthest_square (p q : ℝ) : farthest 0.5 0.5 [(p - 1, q), (p, q - 1), (p + 1, q), (p, q + 1)] = .ok (3, 0) := by
  unfold farthest
  show Except.ok (farLoop 0.5 0.5 _ _ (sqDist 0.5 0.5 (p, q + 1) (p - 1, q), 3, 0)).2 = _
  have e : sqDist 0.5 0.5 (p, q + 1) (p - 1, q) = 0.5 ∧ sqDist 0.5 0.5 (p - 1, q) (p, q - 1) = 0.5 ∧
      sqDist 0.5 0.5 (p, q - 1) (p + 1, q) = 0.5 ∧ sqDist 0.5 0.5 (p + 1, q) (p, q + 1) = 0.5 := by
    unfold sqDist
    simp only
    refine ⟨?_, ?_, ?_, ?_⟩ <;> norm_num
  obtain ⟨e0, e1, e2, e3⟩ := e
  rw [e0]
  simp only [farLoop, e1, e2, e3, lt_irrefl, if_false]

/-- The fifth point of the example is looked for from the first edge. -/
theorem contourStep_tub (sz : ℕ → Bool) (fuel no : ℕ) : ∃ c, TubCross p q c ∧
    contourStep (tubArgs p q sz) (1 / (1 - -1)) (1 / (1 - -1)) fuel no [(p - 1, q), (p, q - 1), (p + 1, q), (p, q + 1)] = (do
      match ← c.cross fuel no with
      | none => pure none
      | some fc => if fc.nevals = 0 then pure (some [(p - 1, q), (p, q - 1), (p + 1, q), (p, q + 1)]) else do
        let x ← idx fc.x 0
        let y ← idx fc.x 1
        pure (some [(p - 1, q), (p, q - 1), (p + 1, q), (p, q + 1), (x, y)])) := by
  have hd : (1 / (1 - -1) : ℝ) = 0.5 := by norm_num
  have hsc : max |(q - (q + 1)) * (0.5 : ℝ)| |(p - (p - 1)) * (0.5 : ℝ)| = 0.5 := by
    rw [show (q - (q + 1)) * (0.5 : ℝ) = -0.5 by ring, show (p - (p - 1)) * (0.5 : ℝ) = 0.5 by ring]
    norm_num
  refine ⟨Crossing.mk (tubArgs p q sz).f (tubArgs p q sz).inner sz (exParams 3) (tubArgs p q sz).sol.cands
    (tubArgs p q sz).sol.bestCandidate.fvalue 1 (exParams 3).ftolerance 0 1
    (0.5 * p + 0.5 * (p - 1), 0.5 * (q + 1) + 0.5 * q) ((q - (q + 1)) / 0.5, (p - (p - 1)) / 0.5),
    ⟨rfl, rfl, rfl, rfl, rfl, rfl, rfl, rfl, rfl, ?_, ?_⟩, ?_⟩
  · simp only [Prod.mk.injEq]; constructor <;> ring
  · simp only [Prod.mk.injEq]; constructor <;> ring
  unfold contourStep
  rw [hd, farthest_square]
  simp only [Out.ok_bind]
  have i3 : idx [(p - 1, q), (p, q - 1), (p + 1, q), (p, q + 1)] 3 = .ok (p, q + 1) := rfl
  have i0 : idx [(p - 1, q), (p, q - 1), (p + 1, q), (p, q + 1)] 0 = .ok (p - 1, q) := rfl
  rw [i3, Out.ok_bind, i0, Out.ok_bind]
  simp only [hsc]
  rw [if_neg (by norm_num)]
  rfl

/-- Intervals of length 2 around the optimum. -/
noncomputable def pliOne : Pli 3 := ⟨0, 0, [], [], 0, 0, -1, 1, 0, 0, [], 1, 0.1⟩

/-- Five points or more of the example. -/
theorem contourPoints_tub {p q : ℝ} (sz : ℕ → Bool) (fuel : ℕ) (nos : ℕ → ℕ) {npoints : ℤ} (hp : 5 ≤ npoints) :
    contourPoints (tubArgs p q sz) fuel nos npoints (fun _ => some pliOne) = (do
      match ← contourLoop (tubArgs p q sz) (1 / (1 - -1)) (1 / (1 - -1)) fuel nos (npoints - 4).toNat 0
        [(p - 1, q), (p, q - 1), (p + 1, q), (p, q + 1)] with
      | none => pure none
      | some r => pure (some (r, fun _ => some pliOne))) := by
  have e : contourPoints (tubArgs p q sz) fuel nos npoints (fun _ => some pliOne) = (do
      let pts ← firstPoints (tubArgs p q sz) pliOne pliOne
      if npoints ≤ 4 then pure (some (pts, fun _ => some pliOne)) else
      if pliOne.errmax - pliOne.errmin = 0 ∨ pliOne.errmax - pliOne.errmin = 0 then .error .notReal else do
      match ← contourLoop (tubArgs p q sz) (1 / (pliOne.errmax - pliOne.errmin)) (1 / (pliOne.errmax - pliOne.errmin)) fuel nos
        (npoints - 4).toNat 0 pts with
      | none => pure none
      | some r => pure (some (r, fun _ => some pliOne))) := rfl
  rw [e, firstPoints_tub sz rfl rfl rfl rfl, Out.ok_bind, if_neg (by omega), if_neg (by norm_num [pliOne])]
  rfl

end ErrStats

end Libcmaes
