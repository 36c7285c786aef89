import Verif.Model.EoMatrix
import Verif.Model.Solutions

/-!
# Model of include/libcmaes/pli.h and of the profile likelihood in src/errstats.cc

The objective is a function of the point (no randomness); it is given vectors of any size.  Parameter indices and
the sample size are natural numbers (a negative `int` is undefined behaviour at once).  The inner optimisations,
calls of `cmaes()` on a problem of smaller dimension, are replaced by an arbitrary function of their arguments and of
their number (`Inner`), so that what is proved holds whatever they return.  Arithmetic on parameters is that of real
numbers.  For `contour_points` and `cross` (src/errstats.cc:330-725) see `Model/Contour`.
-/

namespace Libcmaes

/-- Multiplication by `1e-1` (src/errstats.cc:106). -/
noncomputable def FVal.tenth : FVal → FVal
  | num a => num (a * (0.1 : ℝ))
  | nan => nan

/-- Element access on a vector of dimension `n`; out of range is undefined behaviour. -/
def coord {n : ℕ} (x : Vec n) (k : ℕ) : Out ℝ := if h : k < n then .ok (x ⟨k, h⟩) else .error .ub

/-- `pli` (include/libcmaes/pli.h:34-165).  `_minindex`, `_maxindex` are -1 until set. -/
structure Pli (n : ℕ) where
  k : ℕ
  samplesize : ℕ
  fvaluem : List FVal
  xm : List (Vec n)
  min : ℝ
  max : ℝ
  errmin : ℝ
  errmax : ℝ
  minindex : ℤ
  maxindex : ℤ
  err : List ℤ
  fup : ℝ
  delta : ℝ

namespace Pli

variable {n : ℕ}

/-- Constructor (include/libcmaes/pli.h:52-59). -/
noncomputable def make (k s : ℕ) (xm : Vec n) (fvalue : FVal) (fup delta : ℝ) : Pli n where
  k := k
  samplesize := s
  fvaluem := (List.replicate (2 * s + 1) (FVal.ofReal 0)).set s fvalue
  xm := (List.replicate (2 * s + 1) 0).set s xm
  min := 0
  max := 0
  errmin := 0
  errmax := 0
  minindex := -1
  maxindex := -1
  err := (List.replicate (2 * s + 1) 0).set s 1
  fup := fup
  delta := delta

open Classical in
/-- The scan of Eigen's `minCoeff(&index)`: `i` is the index of the head of the list, `best` and `bi` the least value so
far and its index. -/
noncomputable def scan (best : FVal) (bi : ℕ) : List FVal → ℕ → ℕ
  | [], _ => bi
  | a :: l, i => if FVal.lt a best then scan a i l (i + 1) else scan best bi l (i + 1)

/-- `minCoeff(&index)`; an empty vector is undefined behaviour. -/
noncomputable def argmin : List FVal → Out ℕ
  | [] => .error .ub
  | a :: l => .ok (scan a 0 l 1)

/-- `getMinMax` (include/libcmaes/pli.h:70-80): the two bounds and the two indices. -/
noncomputable def getMinMax (p : Pli n) (fvalue : FVal) : Out ((ℝ × ℝ) × ℕ × ℕ) := do
  let dist (l : List FVal) := l.map fun v => (FVal.sub v fvalue).abs
  let i ← argmin (dist (p.fvaluem.take p.samplesize))
  let j ← argmin (dist (p.fvaluem.drop (p.fvaluem.length - p.samplesize)))
  let lo ← idx p.xm i
  let a ← coord lo p.k
  let hi ← idx p.xm (p.samplesize + 1 + j)
  let b ← coord hi p.k
  pure (if a > b then (b, a) else (a, b), i, j)

/-- `setMinMax` (include/libcmaes/pli.h:85-90). -/
noncomputable def setMinMax (p : Pli n) : Out (Pli n) := do
  let v ← idx p.fvaluem p.samplesize
  let r ← p.getMinMax (v.add (FVal.ofReal p.fup))
  pure { p with min := r.1.1, max := r.1.2, minindex := r.2.1, maxindex := r.2.2 }

/-- `setErrMinMax` (include/libcmaes/pli.h:95-100). -/
noncomputable def setErrMinMax (p : Pli n) : Out (Pli n) := do
  let q ← p.setMinMax
  let c ← idx q.xm q.samplesize
  let x ← coord c q.k
  pure { q with errmin := q.min - x, errmax := q.max - x }

/-- Writing value, point and status at `samplesize+sign*(1+j)` (e.g. src/errstats.cc:100-102, 128-130). -/
def put (p : Pli n) (neg : Bool) (j : ℕ) (v : FVal) (x : Vec n) (st : ℤ) : Out (Pli n) :=
  if neg = true ∧ p.samplesize ≤ j then .error .ub else
  let i := if neg then p.samplesize - (1 + j) else p.samplesize + (1 + j)
  if p.fvaluem.length ≤ i ∨ p.xm.length ≤ i ∨ p.err.length ≤ i then .error .ub
  else .ok { p with fvaluem := p.fvaluem.set i v, xm := p.xm.set i x, err := p.err.set i st }

/-- `pad and return` (src/errstats.cc:98-103, 110-115, 142-147). -/
def pad (p : Pli n) (neg : Bool) (v : FVal) (x : Vec n) (st : ℤ) : Out (Pli n) :=
  (List.range p.samplesize).foldlM (fun p j => p.put neg j v x st) p

end Pli

/-- What the library reads of the solution of an inner optimisation: value and point (genotype) of
`best_candidate()`, number of evaluations, status. -/
structure InnerRes where
  fvalue : FVal
  x : List ℝ
  nevals : ℕ
  status : ℤ

/-- The inner optimisations, `cmaes<TGenoPheno>(rfunc,nparameters)` (src/errstats.cc:289): number of the call, objective,
starting point, step-size and geno/pheno transformation.  The remaining settings are those of the outer search. -/
abbrev Inner := ℕ → (List ℝ → FVal) → List ℝ → ℝ → GenoPheno → Out InnerRes

/-- What is read of the solution that `optimize_vpk` returns: `best_candidate()`, `_candidates.at(0)`, number of evaluations,
status. -/
structure VpkRes where
  best : FVal × List ℝ
  cand : FVal × List ℝ
  nevals : ℕ
  status : ℤ

namespace ErrStats

variable {n : ℕ}

/-- The loop over `k` from its end (src/errstats.cc:246-253): step-size and starting point. -/
noncomputable def reduce (c : Cand n) (kv : List (ℕ × ℝ)) (rx0 : List ℝ) : Out (ℝ × List ℝ) :=
  kv.reverse.foldlM (fun q a => do
    let x ← coord c.x a.1
    pure (max q.1 |x - a.2|, removeElement q.2 a.1)) (0, rx0)

/-- `pvk` before the transformation (src/errstats.cc:256-258). -/
def point (n : ℕ) (kv : List (ℕ × ℝ)) : Out (List ℝ) :=
  kv.foldlM (fun l a => if a.1 < l.length then .ok (l.set a.1 a.2) else .error .ub) (List.replicate n 0)

/-- Inserting coordinates, in the order of `ks` (src/errstats.cc:282-285, 293-294, 304-305); `v` is indexed. -/
def insertAll (ks : List ℕ) (v : List ℝ) (x : List ℝ) : Out (List ℝ) :=
  ks.foldlM (fun l k => do
    let a ← idx v k
    pure (addElement l k a)) x

/-- `rfunc` (src/errstats.cc:277-287). -/
noncomputable def rfunc (f : List ℝ → FVal) (ks : List ℕ) (pvk : List ℝ) (x : List ℝ) : FVal :=
  match insertAll ks pvk x with
  | .ok y => f y
  | .error _ => .nan

/-- `optimize_vpk` (src/errstats.cc:232-313); `kv` are the pairs of the vectors `k` and `vk`.  A result of the inner
optimisation that does not have the dimension of its starting point is impossible; it is given the outcome `ub`.  The
function `rfunc` reads `pvk` out of range only if this function did so before. -/
noncomputable def optimizeVpk (f : List ℝ → FVal) (inner : Inner) (no : ℕ) (gp : GenoPheno) (cands : List (Cand n))
    (kv : List (ℕ × ℝ)) (x0 : List ℝ) (phenoX0 phenoVk : Bool) : Out VpkRes := do
  let rx0 ← (if phenoX0 then pure x0 else gp.pheno x0)
  let c ← (match kv with
    | [] => pure Cand.blank
    | _ => at! cands 0)
  let (sigma, rx) ← reduce c kv rx0
  let p0 ← point x0.length kv
  let pvk ← (if phenoVk then pure p0 else gp.pheno p0)
  if rx = [] then do
    let c0 ← at! cands 0
    pure ⟨(c0.fvalue, List.ofFn c0.x), (f pvk, pvk), 1, 0⟩
  else do
    let ks := kv.map Prod.fst
    let r ← inner no (rfunc f ks pvk) rx sigma (gp.removeDimensions ks)
    if r.x.length ≠ rx.length then .error .ub else do
    let g ← (if phenoVk then gp.geno pvk else pure p0)
    let nx ← insertAll ks g r.x
    pure ⟨(r.fvalue, nx), (r.fvalue, nx), r.nevals, r.status⟩

/-- `eigenve.transpose() * dv` with `dv` zero but for `d` at `k` (src/errstats.cc:181-186, 193-194, 215-216).  The eigenvectors are
empty before the first `tell`; for the diagonal models they are a column of ones, so that the size of the product is 1
(`diag`, taken from the parameters).  Sizes that do not fit are undefined behaviour. -/
noncomputable def rotated (sol : Sol n) (diag : Bool) (k : Fin n) (d : ℝ) : Out (Vec n) :=
  if sol.hasLeig = false ∨ (diag = true ∧ n ≠ 1) then .error .ub
  else if diag then .ok fun _ => d
  else .ok (sol.leigenvectors.transpose.mulVec (Function.update 0 k d))

/-- What a line search uses (src/errstats.cc:159-167). -/
structure Line (n : ℕ) where
  f : List ℝ → FVal
  gp : GenoPheno
  sol : Sol n
  diag : Bool
  k : Fin n
  minf : FVal
  fup : ℝ
  delta : ℝ

open Classical in
/-- The condition of the two loops (src/errstats.cc:187-190, 209-212). -/
noncomputable def Line.goesOn (l : Line n) (above : Bool) (fdiff : FVal) (i : ℕ) (y : Vec n) : Out Bool := do
  let lo ← l.gp.phenoLBound l.k
  let hi ← l.gp.phenoUBound l.k
  let far := if above then FVal.lt (FVal.ofReal (l.fup + l.delta * l.fup)) fdiff
    else FVal.lt fdiff (FVal.ofReal (l.fup - l.delta * l.fup))
  pure (decide (far ∧ 0 < i ∧ lo ≤ y l.k ∧ y l.k ≤ hi))

/-- The loops of `take_linear_step` (src/errstats.cc:187-205, 209-227): `x` is where the line starts, `i` the number of
steps left, `xt`, `y` the present point and its phenotype.  `none`: not ended after `fuel` rounds. -/
noncomputable def Line.loop (l : Line n) (above linit : Bool) (x : Vec n) :
    ℕ → ℕ → ℝ → Vec n → Vec n → FVal → ℕ → Out (Option (ℝ × Vec n × ℕ))
  | fuel, i, d, xt, y, fdiff, ev => do
    if ← l.goesOn above fdiff i y then
      match fuel with
      | 0 => pure none
      | fuel + 1 => do
        let d' := if above then d / 2 else d * 2
        let dv ← rotated l.sol l.diag l.k d'
        let xt' := x + dv
        let y' ← phenoV l.gp xt'
        let fdiff' := (FVal.sub (l.f (List.ofFn y')) l.minf).abs
        loop l above linit x fuel (if linit then i else i - 1) d' xt' y' fdiff' (ev + 1)
    else pure (some (d, xt, ev))

open Classical in
/-- `take_linear_step` (src/errstats.cc:158-230): step, point and number of calls of the objective. -/
noncomputable def takeLinearStep (l : Line n) (fuel nmax : ℕ) (linit : Bool) (d : ℝ) (x : Vec n) :
    Out (Option (ℝ × Vec n × ℕ)) := do
  let y ← phenoV l.gp x
  let fdiff := (FVal.sub (l.f (List.ofFn y)) l.minf).abs
  let above : Bool := decide (FVal.lt (FVal.ofReal (l.fup + l.delta * l.fup)) fdiff)
  let x1 ← (if above then do
      let dv ← rotated l.sol l.diag l.k d
      pure (x - dv)
    else pure x)
  let r ← l.loop above linit x1 fuel nmax d x y fdiff 1
  pure (r.map fun q => (q.1, Function.update x1 l.k (q.2.1 l.k), q.2.2))

/-- Arguments of `profile_likelihood` (src/errstats.cc:29-38). -/
structure Profile (n : ℕ) extends Line n where
  curve : Bool
  samplesize : ℕ
  maxiters : ℤ

open Classical in
/-- The loop of `profile_likelihood_search` (src/errstats.cc:82-155), from round `i` on; `no` counts the inner
optimisations. -/
noncomputable def searchLoop (q : Profile n) (inner : Inner) (lfuel : ℕ) (neg : Bool) :
    ℕ → ℕ → Bool → ℝ → Vec n → Pli n → ℕ → Out (Option (Pli n × ℕ))
  | 0, _, _, _, _, _, _ => pure none
  | fuel + 1, i, linit, d, x, le, no => do
    match ← takeLinearStep q.toLine lfuel 10 linit d x with
    | none => pure none
    | some (d1, x1, _) => do
      let r ← optimizeVpk q.f inner no q.gp q.sol.cands [(q.k.val, x1 q.k)] (List.ofFn x1) false false
      if r.status < 0 ∨ FVal.lt r.best.1 q.minf.tenth then do
        let v ← idx le.fvaluem le.samplesize
        let c ← idx le.xm le.samplesize
        let le1 ← le.pad neg v c r.status
        pure (some (le1, no + 1))
      else do
        let x2 ← toVec n r.best.2
        let bx ← phenoV q.gp x2
        let le1 ← (if q.curve then le.put neg i r.best.1 bx r.status else pure le)
        let iterend : Prop := FVal.le ((FVal.sub (FVal.sub r.best.1 q.minf) (FVal.ofReal q.fup)).abs)
          (FVal.ofReal (0.1 * q.fup))
        if q.curve = false ∧ iterend then do
          let le2 ← le1.pad neg r.best.1 bx r.status
          pure (some (le2, no + 1))
        else if (q.curve = true ∧ i + 1 = q.samplesize) ∨ ((i : ℤ) + 1 = q.maxiters) then pure (some (le1, no + 1))
        else searchLoop q inner lfuel neg fuel (i + 1) false d1 x2 le1 (no + 1)

/-- `profile_likelihood_search` (src/errstats.cc:59-156). -/
noncomputable def search (q : Profile n) (inner : Inner) (fuel : ℕ) (neg : Bool) (le : Pli n) (no : ℕ) :
    Out (Option (Pli n × ℕ)) :=
  let x := q.sol.bestCandidate.x
  searchLoop q inner fuel neg fuel 0 true ((if neg then -1 else 1) * x q.k * 0.1) x le no

/-- `_pls` (include/libcmaes/cmasolutions.h:525). -/
abbrev Pls (n : ℕ) := ℕ → Option (Pli n)

/-- `std::map::insert` (src/errstats.cc:55): an entry there is stays. -/
def insertPli (m : Pls n) (k : ℕ) (le : Pli n) : Pls n :=
  match m k with
  | some _ => m
  | none => Function.update m k (some le)

/-- `get_pli` (include/libcmaes/cmasolutions.h:179-188). -/
def getPli (m : Pls n) (k : ℕ) : Option (Pli n) := m k

/-- Arguments of a call of `profile_likelihood` with solution `sol`. -/
noncomputable def profileOf (f : List ℝ → FVal) (p : Params n) (sol : Sol n) (k : Fin n) (curve : Bool) (samplesize : ℕ)
    (fup delta : ℝ) (maxiters : ℤ) : Profile n where
  f := f
  gp := p.gp
  sol := sol
  diag := p.sep || p.vd
  k := k
  minf := sol.bestCandidate.fvalue
  fup := fup
  delta := delta
  curve := curve
  samplesize := samplesize
  maxiters := maxiters

/-- `profile_likelihood` (src/errstats.cc:29-57); `k` outside the parameters is undefined behaviour.  `none`: some loop
has not ended after `fuel` rounds. -/
noncomputable def profileLikelihood (f : List ℝ → FVal) (inner : Inner) (fuel : ℕ) (p : Params n) (sol : Sol n)
    (pls : Pls n) (k : Fin n) (curve : Bool) (samplesize : ℕ) (fup delta : ℝ) (maxiters : ℤ) :
    Out (Option (Pli n × Pls n)) := do
  let q := profileOf f p sol k curve samplesize fup delta maxiters
  let y ← phenoV p.gp sol.bestCandidate.x
  let le0 := Pli.make k samplesize y sol.bestCandidate.fvalue fup delta
  match ← search q inner fuel false le0 0 with
  | none => pure none
  | some (le1, no1) =>
    match ← search q inner fuel true le1 no1 with
    | none => pure none
    | some (le2, _) => do
      let le ← le2.setErrMinMax
      pure (some (le, insertPli pls k le))

end ErrStats

end Libcmaes
