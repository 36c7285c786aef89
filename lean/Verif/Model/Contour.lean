import Verif.Model.ErrStats

/-!
# Model of include/libcmaes/contour.h and of `contour_points`, `cross` (src/errstats.cc:330-725)

As in `Model/ErrStats`, the objective is a function of the point and the inner optimisations are arbitrary.  Quantities
of `cross` that may become infinite (slope, step length before it is limited, tolerances) are `FVal`s; a step length
that is still not finite when it is used to compute a point has the outcome `notReal`.  The sign of a zero is not
represented: a division by zero takes its sign from `sz`, an arbitrary function of the number of inner optimisations
done.
-/

namespace Libcmaes

namespace FVal

open Classical in
/-- IEEE division; a zero divisor is taken for `-0` if `s`. -/
noncomputable def div (s : Bool) : FVal → FVal → FVal
  | num a, num b =>
    if b = 0 then (if a = 0 then nan else if (0 < a) = (s = false) then num ⊤ else num ⊥)
    else if (a = ⊤ ∨ a = ⊥) ∧ (b = ⊤ ∨ b = ⊥) then nan else num (a / b)
  | _, _ => nan

open Classical in
/-- `std::sqrt`. -/
noncomputable def sqrt : FVal → FVal
  | num a => if a < 0 then nan else if a = ⊤ then num ⊤ else num (Real.sqrt a.toReal : ℝ)
  | nan => nan

open Classical in
/-- Multiplication by a finite number. -/
noncomputable def scale (r : ℝ) : FVal → FVal
  | num a => if r = 0 ∧ (a = ⊤ ∨ a = ⊥) then nan else num (r * a)
  | nan => nan

open Classical in
/-- A number used as a coordinate; infinities and NaN leave the reals. -/
noncomputable def finite : FVal → Out ℝ
  | num a => if a = ⊤ ∨ a = ⊥ then .error .notReal else .ok a.toReal
  | nan => .error .notReal

end FVal

namespace ErrStats

variable {n : ℕ}

/-- `fcross` (include/libcmaes/contour.h:33-47). -/
structure FCross where
  fvalue : FVal
  nevals : ℕ
  x : List ℝ

/-- `fcross()` (include/libcmaes/contour.h:36, 44-46). -/
noncomputable def FCross.empty : FCross := ⟨FVal.ofReal 0, 0, []⟩

/-- What `cross` is called with (src/errstats.cc:469-475): the solution's candidates, the value of its best candidate, the
two parameters, the point `pmid` and the direction `pdir`; and the inner optimisations. -/
structure Crossing (n : ℕ) where
  f : List ℝ → FVal
  inner : Inner
  sz : ℕ → Bool
  p : Params n
  cands : List (Cand n)
  minf : FVal
  fup : ℝ
  ftol : ℝ
  px : ℕ
  py : ℕ
  mid : ℝ × ℝ
  dir : ℝ × ℝ

namespace Crossing

/-- `aim` (src/errstats.cc:481). -/
noncomputable def aim (c : Crossing n) : FVal := c.minf.add (FVal.ofReal c.fup)

/-- `optimize_vpk(func,parameters,sol,par,{vx,vy},parameters.get_x0min())` (e.g. src/errstats.cc:492, 511, 543), where `sol`
has the candidates `cands`. -/
noncomputable def opt (c : Crossing n) (no : ℕ) (cands : List (Cand n)) (v : ℝ × ℝ) : Out VpkRes :=
  optimizeVpk c.f c.inner no c.p.gp cands [(c.px, v.1), (c.py, v.2)] (List.ofFn c.p.x0min) true true

/-- The point at `a` on the line (src/errstats.cc:510, 542, 574). -/
noncomputable def at' (c : Crossing n) (a : ℝ) : ℝ × ℝ := (c.mid.1 + a * c.dir.1, c.mid.2 + a * c.dir.2)

/-- `get_x_pheno_dvec(parameters)` of a candidate of the solution returned by `optimize_vpk`. -/
noncomputable def pheno (c : Crossing n) (x : List ℝ) : Out (List ℝ) := c.p.gp.pheno x

/-- The variables of `cross`: `alsb`, `flsb`, `cmasols` (whose element 2 is not read before it is set), `dfda`, `tla`, `nfcn`,
`tentatives`, and the number of inner optimisations done. -/
structure St where
  al : Fin 3 → ℝ
  fl : Fin 3 → FVal
  sols : Fin 3 → VpkRes
  dfda : FVal
  tla : FVal
  nfcn : ℕ
  tent : ℕ
  no : ℕ

/-- The first two points (src/errstats.cc:477-518): variables, and `cmasol2`. -/
noncomputable def begin (c : Crossing n) (no : ℕ) : Out (St × VpkRes) := do
  let r1 ← c.opt no c.cands c.mid
  let f0 := FVal.stdMax r1.best.1 (c.minf.add (FVal.ofReal (0.1 * c.fup)))
  let q := ((FVal.div (c.sz no) (FVal.ofReal c.fup) (f0.sub c.minf)).sqrt).sub (FVal.ofReal 1)
  let a ← (if FVal.lt (FVal.ofReal 1) q then FVal.ofReal 1
    else if FVal.lt q (FVal.ofReal (-0.5)) then FVal.ofReal 0.5 else q).finite
  let r2 ← c.opt (no + 1) c.cands (c.at' a)
  pure (⟨![0, a, 0], ![f0, r2.best.1, FVal.ofReal 0], ![r1, r2, r2],
    FVal.div (c.sz (no + 1)) (r2.best.1.sub f0) (FVal.ofReal (a - 0)), FVal.ofReal c.ftol, r1.nevals + r2.nevals, 0, no + 2⟩, r2)

/-- The loop on a negative slope (src/errstats.cc:535-552), from round `it` on with `k` rounds left. -/
noncomputable def slopeLoop (c : Crossing n) : ℕ → ℕ → St → Out St
  | 0, _, s => pure s
  | k + 1, it, s => do
    let a := s.al 1 + 0.2 * ((it : ℝ) + 1)
    let r ← c.opt s.no c.cands (c.at' a)
    let s' : St := { s with
      al := ![s.al 1, a, s.al 2]
      fl := ![s.fl 1, r.best.1, s.fl 2]
      sols := ![s.sols 0, r, s.sols 2]
      dfda := FVal.div (c.sz s.no) (r.best.1.sub (s.fl 1)) (FVal.ofReal (a - s.al 1))
      nfcn := s.nfcn + r.nevals
      no := s.no + 1 }
    if FVal.lt (FVal.ofReal 0) s'.dfda then pure s' else slopeLoop c k (it + 1) s'

/-- The variables of the comparison with `aim` (src/errstats.cc:592-610): `ecarmn`, `ecarmx`, `ibest`, `iworst`, `noless`. -/
structure Rank where
  ecarmn : FVal
  ecarmx : FVal
  ibest : Fin 3
  iworst : Fin 3
  noless : ℕ

/-- One round of the comparison (src/errstats.cc:598-610). -/
noncomputable def rankStep (aim : FVal) (fl : Fin 3 → FVal) (q : Rank) (i : Fin 3) : Rank :=
  let e := ((fl i).sub aim).abs
  let q1 := if FVal.lt q.ecarmx e then { q with ecarmx := e, iworst := i } else q
  let q2 := if FVal.lt e q1.ecarmn then { q1 with ecarmn := e, ibest := i } else q1
  if FVal.lt (fl i) aim then { q2 with noless := q2.noless + 1 } else q2

/-- The comparison (src/errstats.cc:592-610). -/
noncomputable def rank (aim : FVal) (fl : Fin 3 → FVal) : Rank :=
  ([0, 1, 2] : List (Fin 3)).foldl (rankStep aim fl) ⟨((fl 2).sub aim).abs, FVal.ofReal 0, 2, 0, 0⟩

open Classical in
/-- One round of the search for `srefp` (src/errstats.cc:619-635). -/
noncomputable def refStep (aim : FVal) (fl : Fin 3 → FVal) (ib : Fin 3) (q : FVal × Option (Fin 3)) (i : Fin 3) :
    FVal × Option (Fin 3) :=
  let e := ((fl i).sub aim).abs
  if i ≠ ib ∧ ((FVal.lt (fl ib) aim ∧ FVal.lt aim (fl i)) ∨ (¬ FVal.lt (fl ib) aim ∧ FVal.lt (fl i) aim)) ∧ FVal.le e q.1
  then (e, some i) else q

/-- `srefp` (src/errstats.cc:616-635); -1 is `none`. -/
noncomputable def refp (aim : FVal) (fl : Fin 3 → FVal) (q : Rank) : Option (Fin 3) :=
  (([0, 1, 2] : List (Fin 3)).foldl (refStep aim fl q.ibest) (q.ecarmx, none)).2

/-- The incremental search (src/errstats.cc:661-682): `x` are the coordinates `par` of `xstart`, `d` the steps, `sol` is `citsol`,
of whose candidate only the coordinates `par` are read.  `none`: not ended after `fuel` rounds. -/
noncomputable def lineLoop (c : Crossing n) (d : ℝ × ℝ) : ℕ → ℝ × ℝ → VpkRes → ℕ → Out (Option VpkRes)
  | 0, _, _, _ => pure none
  | fuel + 1, x, sol, no => do
    let x' := (x.1 + d.1, x.2 + d.2)
    let r ← c.opt no [⟨sol.cand.1, fun i => sol.cand.2.getD i 0, -1⟩] x'
    if FVal.lt c.aim r.best.1 then pure (some sol) else lineLoop c d fuel x' r (no + 1)

/-- At least one point on each side of `aim` (src/errstats.cc:613-689). -/
noncomputable def between (c : Crossing n) (fuel : ℕ) (s : St) (q : Rank) : Out (Option FCross) :=
  match refp c.aim s.fl q with
  | none => .error .outOfRange
  | some ir => do
    let xr ← c.pheno (s.sols ir).best.2
    let xb ← c.pheno (s.sols q.ibest).best.2
    let rx ← idx xr c.px
    let bx ← idx xb c.px
    let ry ← idx xr c.py
    let by' ← idx xb c.py
    let below := FVal.lt (s.sols q.ibest).best.1 c.aim
    let x0 := if below then (bx, by') else (rx, ry)
    let d := ((if rx - bx > 0 then 1 else -1) * |x0.1| * 0.1, (if ry - by' > 0 then 1 else -1) * |x0.2| * 0.1)
    match ← c.lineLoop d fuel x0 (s.sols q.ibest) s.no with
    | none => pure none
    | some sol => do
      let y ← c.pheno sol.cand.2
      pure (some ⟨sol.cand.1, s.nfcn, y⟩)

/-- `aopt` and `tla` at `point3`, and whether the search ends there (src/errstats.cc:563-568). -/
noncomputable def third (c : Crossing n) (s : St) : FVal × FVal × Prop :=
  let a := (FVal.ofReal (s.al 1)).add (FVal.div (c.sz s.no) (c.aim.sub (s.fl 1)) s.dfda)
  let fdist := FVal.stdMin (c.aim.sub (s.fl 0)).abs (c.aim.sub (s.fl 1)).abs
  let adist := FVal.stdMin (a.sub (FVal.ofReal (s.al 0))).abs (a.sub (FVal.ofReal (s.al 1))).abs
  let tla := if FVal.lt (FVal.ofReal 1) a.abs then FVal.scale c.ftol a.abs else s.tla
  (a, tla, FVal.lt adist tla ∧ FVal.lt fdist (FVal.ofReal (c.ftol * c.fup)))

/-- `aopt` brought within 1 of the two points (src/errstats.cc:578-581). -/
noncomputable def limited (s : St) (a : FVal) : FVal :=
  let bmin := FVal.ofReal (min (s.al 0) (s.al 1) - 1)
  let bmax := FVal.ofReal (max (s.al 0) (s.al 1) + 1)
  let a1 := if FVal.lt a bmin then bmin else a
  if FVal.lt bmax a1 then bmax else a1

open Classical in
/-- From `slope` (`up = false`) or from `point3` (`up = true`) on (src/errstats.cc:525-724); `r2` is `cmasol2`.  `none`: not ended
after `fuel` rounds. -/
noncomputable def loop (c : Crossing n) (r2 : VpkRes) : ℕ → Bool → St → Out (Option FCross)
  | 0, _, _ => pure none
  | fuel + 1, false, s => do
    let s1 ← (if FVal.lt s.dfda (FVal.ofReal 0) then c.slopeLoop 13 0 s else pure s)
    loop c r2 fuel true { s1 with tent := 0 }
  | fuel + 1, true, s => do
    let t := c.third s
    if t.2.2 then do
      let y ← c.pheno r2.best.2
      pure (some ⟨r2.best.1, s.nfcn, y⟩)
    else do
      let a ← (limited s t.1).finite
      let r ← c.opt s.no c.cands (c.at' a)
      let s1 : St := { s with
        al := ![s.al 0, s.al 1, a]
        fl := ![s.fl 0, s.fl 1, r.best.1]
        sols := ![s.sols 0, s.sols 1, r]
        tla := t.2.1
        nfcn := s.nfcn + r.nevals
        tent := s.tent + 1
        no := s.no + 1 }
      let q := rank c.aim s1.fl
      if q.noless = 1 ∨ q.noless = 2 then c.between fuel s1 q
      else if q.noless = 0 ∧ q.ibest ≠ 2 then do
        let y ← c.pheno (s1.sols q.ibest).best.2
        pure (some ⟨s1.fl q.ibest, s1.nfcn, y⟩)
      else if q.noless = 3 ∧ q.ibest ≠ 2 then
        loop c r2 fuel false { s1 with al := ![s1.al 0, a, a], fl := ![s1.fl 0, r.best.1, r.best.1] }
      else
        let al := Function.update s1.al q.iworst a
        let fl := Function.update s1.fl q.iworst r.best.1
        let s2 : St := { s1 with
          al := al
          fl := fl
          dfda := FVal.div (c.sz s1.no) ((fl 1).sub (fl 0)) (FVal.ofReal (al 1 - al 0)) }
        if s2.tent < 10 then loop c r2 fuel true s2 else pure (some FCross.empty)

/-- `cross` (src/errstats.cc:468-725); the inner optimisations are numbered from `no` on. -/
noncomputable def cross (c : Crossing n) (fuel no : ℕ) : Out (Option FCross) := do
  let s ← c.begin no
  c.loop s.2 fuel false s.1

end Crossing

/-- Squared distance of two points with the scales of the two parameters (src/errstats.cc:404-406, 410-412). -/
noncomputable def sqDist (sx sy : ℝ) (a b : ℝ × ℝ) : ℝ :=
  sx * sx * (a.1 - b.1) * (a.1 - b.1) + sy * sy * (a.2 - b.2) * (a.2 - b.2)

/-- The loop over neighbouring points (src/errstats.cc:408-420): `i` is the index of the head, `q` the greatest distance so far
and the indices of the two points. -/
noncomputable def farLoop (sx sy : ℝ) : List (ℝ × ℝ) → ℕ → ℝ × ℕ × ℕ → ℝ × ℕ × ℕ
  | a :: b :: l, i, q =>
    farLoop sx sy (b :: l) (i + 1) (if q.1 < sqDist sx sy a b then (sqDist sx sy a b, i, i + 1) else q)
  | _, _, q => q

/-- The most distant neighbours (src/errstats.cc:401-420); the list is never empty. -/
noncomputable def farthest (sx sy : ℝ) (pts : List (ℝ × ℝ)) : Out (ℕ × ℕ) := do
  let a ← idx pts (pts.length - 1)
  let b ← idx pts 0
  pure (farLoop sx sy pts 0 (sqDist sx sy a b, pts.length - 1, 0)).2

/-- Arguments of `contour_points` (src/errstats.cc:331-335) and the outcomes of the inner optimisations; `innerX`, `innerY` are
those of the two calls of `profile_likelihood`. -/
structure ContourArgs (n : ℕ) where
  f : List ℝ → FVal
  px : Fin n
  py : Fin n
  fup : ℝ
  p : Params n
  sol : Sol n
  delta : ℝ
  maxiters : ℤ
  innerX : Inner
  innerY : Inner
  inner : Inner
  sz : ℕ → Bool

/-- One more point (src/errstats.cc:393-456); each call of `cross` has its own numbering of the inner optimisations, from
`no` on. -/
noncomputable def contourStep (c : ContourArgs n) (sx sy : ℝ) (fuel no : ℕ) (pts : List (ℝ × ℝ)) :
    Out (Option (List (ℝ × ℝ))) := do
  let i ← farthest sx sy pts
  let a ← idx pts i.1
  let b ← idx pts i.2
  let xdir := b.2 - a.2
  let ydir := a.1 - b.1
  let scalfac := max |xdir * sx| |ydir * sy|
  if scalfac = 0 then .error .notReal else do
  let r ← (Crossing.mk c.f c.inner c.sz c.p c.sol.cands c.sol.bestCandidate.fvalue c.fup c.p.ftolerance c.px c.py
    (0.5 * a.1 + 0.5 * b.1, 0.5 * a.2 + 0.5 * b.2) (xdir / scalfac, ydir / scalfac)).cross fuel no
  match r with
  | none => pure none
  | some fc =>
    if fc.nevals = 0 then pure (some pts) else do
    let x ← idx fc.x c.px
    let y ← idx fc.x c.py
    pure (some (if i.2 = 0 then pts ++ [(x, y)] else pts.insertIdx i.2 (x, y)))

/-- The loop over the points from the fifth on (src/errstats.cc:389-456); `k` points are left to compute.  The numbers of the
inner optimisations of the `i`-th round start from `nos i`. -/
noncomputable def contourLoop (c : ContourArgs n) (sx sy : ℝ) (fuel : ℕ) (nos : ℕ → ℕ) :
    ℕ → ℕ → List (ℝ × ℝ) → Out (Option (List (ℝ × ℝ)))
  | 0, _, pts => pure (some pts)
  | k + 1, i, pts => do
    match ← contourStep c sx sy fuel (nos i) pts with
    | none => pure none
    | some pts' => contourLoop c sx sy fuel nos k (i + 1) pts'

/-- The interval of a parameter: the one there is, or a new one (src/errstats.cc:338-351). -/
noncomputable def pliOf (c : ContourArgs n) (inner : Inner) (fuel : ℕ) (pls : Pls n) (k : Fin n) :
    Out (Option (Pli n × Pls n)) :=
  match getPli pls k with
  | some le => pure (some (le, pls))
  | none => profileLikelihood c.f inner fuel c.p c.sol pls k false 10 c.fup c.delta c.maxiters

/-- The optimum with one parameter fixed (src/errstats.cc:358-371), as a phenotype. -/
noncomputable def sidePoint (c : ContourArgs n) (no : ℕ) (k : Fin n) (v : ℝ) : Out (Vec n) := do
  let r ← optimizeVpk c.f c.inner no c.p.gp c.sol.cands [(k.val, v)] (List.ofFn c.p.x0min) true true
  let x ← toVec n r.best.2
  phenoV c.p.gp x

/-- The first four points (src/errstats.cc:353-380). -/
noncomputable def firstPoints (c : ContourArgs n) (plx ply : Pli n) : Out (List (ℝ × ℝ)) := do
  let x ← phenoV c.p.gp c.sol.bestCandidate.x
  let xu ← sidePoint c 0 c.px (x c.px + plx.errmax)
  let xl ← sidePoint c 1 c.px (x c.px + plx.errmin)
  let yu ← sidePoint c 2 c.py (x c.py + ply.errmax)
  let yl ← sidePoint c 3 c.py (x c.py + ply.errmin)
  pure [(x c.px + plx.errmin, xl c.py), (yl c.px, x c.py + ply.errmin), (x c.px + plx.errmax, xu c.py),
    (yu c.px, x c.py + ply.errmax)]

/-- `contour_points` (src/errstats.cc:330-466).  Parameter indices out of range are undefined behaviour.  An interval of length
0 makes the scales infinite (`notReal`), which matters only if there is a fifth point.  The profile intervals are stored
in the solution.  `none`: some loop has not ended after `fuel` rounds. -/
noncomputable def contourPoints (c : ContourArgs n) (fuel : ℕ) (nos : ℕ → ℕ) (npoints : ℤ) (pls : Pls n) :
    Out (Option (List (ℝ × ℝ) × Pls n)) := do
  match ← pliOf c c.innerX fuel pls c.px with
  | none => pure none
  | some (plx, pls1) =>
    match ← pliOf c c.innerY fuel pls1 c.py with
    | none => pure none
    | some (ply, pls2) => do
      let pts ← firstPoints c plx ply
      if npoints ≤ 4 then pure (some (pts, pls2)) else
      if plx.errmax - plx.errmin = 0 ∨ ply.errmax - ply.errmin = 0 then .error .notReal else do
      match ← contourLoop c (1 / (plx.errmax - plx.errmin)) (1 / (ply.errmax - ply.errmin)) fuel nos
        (npoints - 4).toNat 0 pts with
      | none => pure none
      | some r => pure (some (r, pls2))

end ErrStats

end Libcmaes
