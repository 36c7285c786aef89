import Verif.Lemmas.ContourGrow
import Verif.Lemmas.ContourCross
import Verif.Props.ErrStats

/-!
# Lemmas for contours: exact inner optimisations
-/

namespace Libcmaes

namespace ErrStats

variable {n : ℕ}

theorem survivors_gen_inj {α : Type} (ks : List ℕ) : ∀ (a b : List α) (i : ℕ), a.length = b.length →
    (∀ j, i + j ∈ ks → a[j]? = b[j]?) →
    ((a.zipIdx i).filter fun p => decide (p.2 ∉ ks)).map Prod.fst = ((b.zipIdx i).filter fun p => decide (p.2 ∉ ks)).map Prod.fst →
    a = b
  | [], [], _, _, _, _ => rfl
  | [], _ :: _, _, h, _, _ => by simp at h
  | _ :: _, [], _, h, _, _ => by simp at h
  | x :: a, y :: b, i, hl, hj, h => by
    have ih := survivors_gen_inj ks a b (i + 1) (by simpa using hl) (fun j hk => by
      have := hj (j + 1) (by rw [← add_assoc, add_right_comm]; exact hk)
      simpa using this)
    by_cases hi : i ∈ ks
    · have h0 := hj 0 hi
      simp only [List.getElem?_cons_zero, Option.some.injEq] at h0
      subst h0
      congr 1
      refine ih ?_
      simpa [List.zipIdx_cons, List.filter_cons, hi] using h
    · simp only [List.zipIdx_cons, List.filter_cons, hi, not_false_eq_true, decide_true, if_true, List.map_cons,
        List.cons.injEq] at h
      rw [h.1, ih h.2]

theorem survivors_inj {α : Type} {ks : List ℕ} {a b : List α} (hl : a.length = b.length) (hk : ∀ k ∈ ks, a[k]? = b[k]?)
    (h : survivors ks a = survivors ks b) : a = b :=
  survivors_gen_inj ks a b 0 hl (fun j hj => hk j (by simpa using hj)) h

/-- With exact inner optimisations, `optimize_vpk` finds the least value with the given parameters fixed. -/
theorem optimizeVpk_least {f : List ℝ → FVal} {inner : Inner} {no : ℕ} {cands : List (Cand n)} {kv : List (ℕ × ℝ)} {x0 : List ℝ}
    {r : VpkRes} (he : Inner.Exact inner) (hx0 : x0.length = n) (hne : kv ≠ []) (hlt : kv.length < n)
    (hord : (kv.map Prod.fst).Pairwise (· < ·)) (hk : ∀ a ∈ kv, a.1 < n)
    (h : optimizeVpk f inner no GenoPheno.plain cands kv x0 true true = .ok r) :
    r.cand = r.best ∧ r.best.2.length = n ∧ (∀ a ∈ kv, r.best.2[a.1]? = some a.2) ∧ f r.best.2 = r.best.1 ∧
      ∀ y : List ℝ, y.length = n → (∀ a ∈ kv, y[a.1]? = some a.2) → FVal.le (f r.best.2) (f y) := by
  obtain ⟨c, hc⟩ : ∃ c, cands[0]? = some c := by
    unfold optimizeVpk at h
    obtain ⟨_, _, h⟩ := Out.bind_eq_ok.1 h
    obtain ⟨c, hc, h⟩ := Out.bind_eq_ok.1 h
    cases kv with
    | nil => exact absurd rfl hne
    | cons a l => exact ⟨c, at!_eq_ok.1 hc⟩
  obtain ⟨g, σ, ir, h1, h2, _, _, h3, h4, _, _, h5, h6, h7⟩ := C86_points_partial hc hx0 hne hlt hord hk h
  obtain ⟨e1, e2, e3⟩ := he _ _ _ _ _ h1
  have hsl : ∀ y : List ℝ, y.length = n → (survivors (kv.map Prod.fst) y).length + kv.length = n := by
    intro y hy
    have := removeElements_length (kv.map Prod.fst).reverse (l := y) (List.pairwise_reverse.2 hord) (fun k hk' => by
      obtain ⟨a, ha, rfl⟩ := List.mem_map.1 (List.mem_reverse.1 hk')
      rw [hy]
      exact hk a ha)
    rw [removeElements_reverse hord, List.length_reverse, List.length_map, hy] at this
    exact this
  have key : ∀ y : List ℝ, y.length = n → (∀ a ∈ kv, y[a.1]? = some a.2) → g (survivors (kv.map Prod.fst) y) = f y := by
    intro y hy hv
    obtain ⟨y', k1, k2, k3, k4⟩ := h2 _ (hsl y hy)
    rw [k1, survivors_inj (k2.trans hy.symm) (fun k hk' => ?_) k4]
    obtain ⟨a, ha, rfl⟩ := List.mem_map.1 hk'
    rw [k3 a ha, hv a ha]
  have e4 := key _ h5 h6
  rw [h7] at e4
  refine ⟨h4, h5, h6, by rw [← e4, h3, e2], fun y hy hv => ?_⟩
  rw [← e4, ← key y hy hv]
  refine e3 _ ?_
  have a1 := hsl y hy
  have a2 := hsl x0 hx0
  omega

/-- With exact inner optimisations, each new corner is on the line at right angles, or straddles the aim. -/
theorem newCorner_exact {c : ContourArgs n} {sx sy : ℝ} {fuel : ℕ} {nos : ℕ → ℕ} {i : ℕ} {a b z : ℝ × ℝ} (hn : 2 < n)
    (hgp : c.p.gp = GenoPheno.plain) (hxy : c.px < c.py) (he : Inner.Exact c.inner) (h : NewCorner c sx sy fuel nos i a b z) :
    Bisects a b z ∨ Straddles c.f n c.px c.py (c.sol.bestCandidate.fvalue.add (FVal.ofReal c.fup)) a b z := by
  obtain ⟨mid, dir, fc, h1, h2, h3, _, hc, hne, hz1, hz2⟩ := h
  have hopt : ∀ {no : ℕ} {cands : List (Cand n)} {v : ℝ × ℝ} {r : VpkRes}, (crossingOf c mid dir).opt no cands v = .ok r →
      r.cand = r.best ∧ r.best.2[c.px.val]? = some v.1 ∧ r.best.2[c.py.val]? = some v.2 ∧
        Least c.f n [(c.px.val, v.1), (c.py.val, v.2)] r.best.1 := by
    intro no cands v r hr
    unfold Crossing.opt at hr
    rw [show (crossingOf c mid dir).p.gp = GenoPheno.plain from hgp] at hr
    obtain ⟨r1, r2, r3, r4, r5⟩ := optimizeVpk_least he (by simp) (by simp) (by simpa using hn)
      (by simpa [crossingOf] using hxy) (by
        intro a ha
        simp only [List.mem_cons, List.not_mem_nil, or_false] at ha
        rcases ha with rfl | rfl
        · exact c.px.2
        · exact c.py.2) hr
    exact ⟨r1, r3 (c.px.val, v.1) (by simp [crossingOf]), r3 (c.py.val, v.2) (by simp [crossingOf]), _, r2, r3, r4, r5⟩
  have hph : ∀ {x y : List ℝ}, (crossingOf c mid dir).pheno x = .ok y → x = y := by
    intro x y hy
    unfold Crossing.pheno at hy
    rw [show (crossingOf c mid dir).p.gp = GenoPheno.plain from hgp] at hy
    exact Except.ok.inj hy
  have hbis : ∀ t : ℝ, Bisects a b ((crossingOf c mid dir).at' t) := by
    intro t
    unfold Bisects Crossing.at'
    show (mid.1 + t * dir.1 - _) * _ + (mid.2 + t * dir.2 - _) * _ = 0
    rw [h1, h2]
    linear_combination t * h3
  rcases Crossing.cross_spec hc with rfl | ⟨r, ⟨no, t, hr⟩, hx⟩ | ⟨r, ⟨no, e, v, hr, hle, no', e', r', d, r0, y, x1, x2, hr', hlt,
    ⟨no0, t, hr0⟩, hy, hx1, hx2, hd1, hd2⟩, hx⟩
  · exact absurd rfl hne
  · left
    obtain ⟨e1, e2, e3, _⟩ := hopt hr
    have hx' : r.best.2 = fc.x := by
      rcases hx with hx | hx
      · exact hph hx
      · rw [e1] at hx; exact hph hx
    rw [← hx'] at hz1 hz2
    rw [e2] at hz1
    rw [e3] at hz2
    have : z = (crossingOf c mid dir).at' t := Prod.ext (Option.some.inj hz1).symm (Option.some.inj hz2).symm
    rw [this]
    exact hbis t
  · right
    obtain ⟨e1, e2, e3, e4⟩ := hopt hr
    rw [e1] at hx
    rw [← hph hx] at hz1 hz2
    rw [e2] at hz1
    rw [e3] at hz2
    have hzv : z = v := Prod.ext (Option.some.inj hz1).symm (Option.some.inj hz2).symm
    subst hzv
    obtain ⟨_, u2, u3, _⟩ := hopt hr0
    obtain rfl := hph hy
    rw [show (crossingOf c mid dir).px = c.px.val from rfl, u2] at hx1
    rw [show (crossingOf c mid dir).py = c.py.val from rfl, u3] at hx2
    obtain rfl := Option.some.inj hx1
    obtain rfl := Option.some.inj hx2
    exact ⟨_, _, _, d, hbis t, by rw [hd1]; ring, by rw [hd2]; ring, e4, hle, (hopt hr').2.2.2, hlt⟩

/-- The first four points. -/
theorem firstPoints_exact {c : ContourArgs n} {plx ply : Pli n} {a0 b0 a1 b1 : ℝ} (hn : 1 < n)
    (hgp : c.p.gp = GenoPheno.plain) (he : Inner.Exact c.inner) (h : firstPoints c plx ply =
      .ok [(c.sol.bestCandidate.x c.px + plx.errmin, a0), (b0, c.sol.bestCandidate.x c.py + ply.errmin),
        (c.sol.bestCandidate.x c.px + plx.errmax, a1), (b1, c.sol.bestCandidate.x c.py + ply.errmax)]) :
      (∃ w, Least c.f n [(c.px.val, c.sol.bestCandidate.x c.px + plx.errmin)] w ∧
        Least c.f n [(c.px.val, c.sol.bestCandidate.x c.px + plx.errmin), (c.py.val, a0)] w) ∧
      (∃ w, Least c.f n [(c.py.val, c.sol.bestCandidate.x c.py + ply.errmin)] w ∧
        Least c.f n [(c.px.val, b0), (c.py.val, c.sol.bestCandidate.x c.py + ply.errmin)] w) ∧
      (∃ w, Least c.f n [(c.px.val, c.sol.bestCandidate.x c.px + plx.errmax)] w ∧
        Least c.f n [(c.px.val, c.sol.bestCandidate.x c.px + plx.errmax), (c.py.val, a1)] w) ∧
      (∃ w, Least c.f n [(c.py.val, c.sol.bestCandidate.x c.py + ply.errmax)] w ∧
        Least c.f n [(c.px.val, b1), (c.py.val, c.sol.bestCandidate.x c.py + ply.errmax)] w) := by
  have hside : ∀ {no : ℕ} {k : Fin n} {v : ℝ} {y : Vec n}, sidePoint c no k v = .ok y → y k = v ∧
      ∃ w, (∀ kv : List (Fin n), k ∈ kv → Least c.f n (kv.map fun j => (j.val, y j)) w) := by
    intro no k v y hy
    unfold sidePoint at hy
    obtain ⟨r, hr, hy⟩ := Out.bind_eq_ok.1 hy
    obtain ⟨x, hx, hy⟩ := Out.bind_eq_ok.1 hy
    rw [hgp, phenoV_plain] at hy
    obtain rfl := Except.ok.inj hy
    rw [hgp] at hr
    obtain ⟨r1, r2, r3, r4, r5⟩ := optimizeVpk_least he (by simp) (by simp) (by simpa using hn) (by simp) (by
        intro a ha
        rw [List.mem_singleton] at ha
        subst ha
        exact k.2) hr
    have hxl : r.best.2 = List.ofFn x := toVec_eq_ok hx
    have hk : x k = v := by
      have := r3 (k.val, v) (by simp)
      rw [hxl] at this
      simpa using this
    refine ⟨hk, r.best.1, fun kv hmem => ⟨r.best.2, r2, ?_, r4, fun y' hy' hv => r5 y' hy' ?_⟩⟩
    · intro a ha
      obtain ⟨j, hj, rfl⟩ := List.mem_map.1 ha
      rw [hxl]
      simp
    · intro a ha
      rw [List.mem_singleton] at ha
      subst ha
      have := hv (k.val, x k) (List.mem_map.2 ⟨k, hmem, rfl⟩)
      rw [hk] at this
      exact this
  unfold firstPoints at h
  obtain ⟨x, hx, h⟩ := Out.bind_eq_ok.1 h
  rw [hgp, phenoV_plain] at hx
  obtain rfl := Except.ok.inj hx
  obtain ⟨xu, h1, h⟩ := Out.bind_eq_ok.1 h
  obtain ⟨xl, h2, h⟩ := Out.bind_eq_ok.1 h
  obtain ⟨yu, h3, h⟩ := Out.bind_eq_ok.1 h
  obtain ⟨yl, h4, h⟩ := Out.bind_eq_ok.1 h
  have h := Except.ok.inj h
  simp only [List.cons.injEq, Prod.mk.injEq, true_and, and_true] at h
  obtain ⟨rfl, rfl, rfl, rfl⟩ := h
  obtain ⟨s1, w1, l1⟩ := hside h1
  obtain ⟨s2, w2, l2⟩ := hside h2
  obtain ⟨s3, w3, l3⟩ := hside h3
  obtain ⟨s4, w4, l4⟩ := hside h4
  refine ⟨⟨w2, ?_, ?_⟩, ⟨w4, ?_, ?_⟩, ⟨w1, ?_, ?_⟩, ⟨w3, ?_, ?_⟩⟩
  · simpa [s2] using l2 [c.px] (by simp)
  · simpa [s2] using l2 [c.px, c.py] (by simp)
  · simpa [s4] using l4 [c.py] (by simp)
  · simpa [s4] using l4 [c.px, c.py] (by simp)
  · simpa [s1] using l1 [c.px] (by simp)
  · simpa [s1] using l1 [c.px, c.py] (by simp)
  · simpa [s3] using l3 [c.py] (by simp)
  · simpa [s3] using l3 [c.px, c.py] (by simp)

theorem sqDist_eq (lx ly : ℝ) : sqDist (1 / lx) (1 / ly) = fun a b => ((a.1 - b.1) / lx) ^ 2 + ((a.2 - b.2) / ly) ^ 2 := by
  funext a b
  unfold sqDist
  ring

theorem Grows.eq_of_none {d : ℝ × ℝ → ℝ × ℝ → ℝ} {Z : ℕ → ℝ × ℝ → ℝ × ℝ → ℝ × ℝ → Prop} {k i : ℕ} {pts pts' : List (ℝ × ℝ)}
    (h : Grows d Z k i pts pts') (hz : ∀ i a b z, ¬ Z i a b z) : pts' = pts := by
  induction h with
  | done => rfl
  | skip _ ih => exact ih
  | step _ h _ _ => exact absurd h (hz _ _ _ _)

theorem pliOf_cases {c : ContourArgs n} {inner : Inner} {fuel : ℕ} {pls pls' : Pls n} {k : Fin n} {le : Pli n}
    (h : pliOf c inner fuel pls k = .ok (some (le, pls'))) : getPli pls' k = some le ∧
      (∀ le', getPli pls k = some le' → le = le') ∧ ∀ k' le', getPli pls k' = some le' → getPli pls' k' = some le' := by
  unfold pliOf at h
  cases hg : getPli pls k with
  | some l =>
    rw [hg] at h
    have e := Option.some.inj (Except.ok.inj h)
    rw [Prod.mk.injEq] at e
    obtain ⟨rfl, rfl⟩ := e
    exact ⟨hg, fun _ h => Option.some.inj h, fun _ _ h => h⟩
  | none =>
    rw [hg] at h
    obtain ⟨h1, h2⟩ := C56_get_partial h
    refine ⟨h1 hg, fun _ h => (nomatch h), fun k' le' h' => ?_⟩
    rw [h2 k' (by rintro rfl; rw [hg] at h'; exact nomatch h')]
    exact h'

theorem contourPoints_cases {c : ContourArgs n} {fuel : ℕ} {nos : ℕ → ℕ} {npoints : ℤ} {pls pls' : Pls n} {pts : List (ℝ × ℝ)}
    (h : contourPoints c fuel nos npoints pls = .ok (some (pts, pls'))) :
    ∃ (x : Vec n) (plx ply : Pli n) (a0 b0 a1 b1 : ℝ), phenoV c.p.gp c.sol.bestCandidate.x = .ok x ∧
      getPli pls' c.px = some plx ∧ getPli pls' c.py = some ply ∧
      (∀ le, getPli pls c.px = some le → plx = le) ∧ (∀ le, getPli pls c.py = some le → ply = le) ∧
      firstPoints c plx ply = .ok [(x c.px + plx.errmin, a0), (b0, x c.py + ply.errmin), (x c.px + plx.errmax, a1),
        (b1, x c.py + ply.errmax)] ∧
      Grows (sqDist (1 / (plx.errmax - plx.errmin)) (1 / (ply.errmax - ply.errmin)))
        (NewCorner c (1 / (plx.errmax - plx.errmin)) (1 / (ply.errmax - ply.errmin)) fuel nos) (npoints - 4).toNat 0
        [(x c.px + plx.errmin, a0), (b0, x c.py + ply.errmin), (x c.px + plx.errmax, a1), (b1, x c.py + ply.errmax)] pts := by
  unfold contourPoints at h
  obtain ⟨o1, ho1, h⟩ := Out.bind_eq_ok.1 h
  rcases o1 with _ | ⟨plx, pls1⟩
  · exact nomatch h
  simp only at h
  obtain ⟨o2, ho2, h⟩ := Out.bind_eq_ok.1 h
  rcases o2 with _ | ⟨ply, pls2⟩
  · exact nomatch h
  simp only at h
  obtain ⟨pts0, hp, h⟩ := Out.bind_eq_ok.1 h
  obtain ⟨u1, u2, u3⟩ := pliOf_cases ho1
  obtain ⟨v1, v2, v3⟩ := pliOf_cases ho2
  obtain ⟨x, a0, b0, a1, b1, hx, rfl⟩ : ∃ (x : Vec n) (a0 b0 a1 b1 : ℝ), phenoV c.p.gp c.sol.bestCandidate.x = .ok x ∧
      pts0 = [(x c.px + plx.errmin, a0), (b0, x c.py + ply.errmin), (x c.px + plx.errmax, a1), (b1, x c.py + ply.errmax)] := by
    unfold firstPoints at hp
    obtain ⟨x, hx, hp⟩ := Out.bind_eq_ok.1 hp
    obtain ⟨xu, h1, hp⟩ := Out.bind_eq_ok.1 hp
    obtain ⟨xl, h2, hp⟩ := Out.bind_eq_ok.1 hp
    obtain ⟨yu, h3, hp⟩ := Out.bind_eq_ok.1 hp
    obtain ⟨yl, h4, hp⟩ := Out.bind_eq_ok.1 hp
    exact ⟨x, _, _, _, _, hx, (Except.ok.inj hp).symm⟩
  by_cases h4 : npoints ≤ 4
  · rw [if_pos h4] at h
    have e := Option.some.inj (Except.ok.inj h)
    rw [Prod.mk.injEq] at e
    obtain ⟨rfl, rfl⟩ := e
    refine ⟨x, plx, ply, a0, b0, a1, b1, hx, v3 _ _ u1, v1, u2, fun le hle => v2 le (u3 _ _ hle), hp, ?_⟩
    rw [show (npoints - 4).toNat = 0 by omega]
    exact .done _ _
  · rw [if_neg h4] at h
    split_ifs at h with h0
    obtain ⟨o3, ho3, h⟩ := Out.bind_eq_ok.1 h
    rcases o3 with _ | r
    · exact nomatch h
    have e := Option.some.inj (Except.ok.inj h)
    rw [Prod.mk.injEq] at e
    obtain ⟨rfl, rfl⟩ := e
    exact ⟨x, plx, ply, a0, b0, a1, b1, hx, v3 _ _ u1, v1, u2, fun le hle => v2 le (u3 _ _ hle), hp, contourLoop_grows _ _ ho3⟩

end ErrStats

end Libcmaes
