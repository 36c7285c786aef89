import Verif.Lemmas.SurrQuiet
import Verif.Lemmas.Witness

/-! # Set-ups of surrogate searches -/

namespace Libcmaes

open Spec

variable {n : ℕ} {M : Type}

namespace Surr

/-- A model that is never trained and predicts by `g`. -/
noncomputable def untrained (g : Vec n → FVal) : SurrFuncs n Unit where
  train m _ _ := .ok m
  predict _ _ _ l := .ok (l.map fun c => { c with fvalue := g c.x })
  usort := USort.merge _
  usortR := USort.merge _
  z0 _ := 0
  z1 _ := 0

theorem untrained_pointwise (g : Vec n → FVal) : Pointwise (untrained g) fun _ _ _ => g := fun _ _ _ _ => rfl

theorem untrained_sane {env : Env n} {g : Vec n → FVal} (hf : ∀ k y, (env.f k y).IsNum) (hg : ∀ x, (g x).IsNum) :
    Sane env (untrained g) fun _ _ _ => g :=
  ⟨hf, fun _ _ _ => hg, untrained_pointwise g, fun m _ _ => ⟨m, rfl⟩⟩

/-- A start with room for one population in the training set and two steps between trainings. -/
theorem start_two {env : Env n} {kind : CovKind} {p : Params n} (hu : Usual kind p) (hgp : p.gp = GenoPheno.plain)
    (m : M) : ∃ t, SimpleStart env kind p m t ∧ t.l = p.lambda ∧ t.nsteps = 2 ∧ t.exploit = true := by
  obtain ⟨s, hs⟩ := new_plain (env := env) (kind := kind) hgp hu.configured.good.1
  obtain ⟨t, ht⟩ := simpleStart_exists hs m
  exact ⟨((t.setL p.lambda).setExploit true).setNsteps 2, .setNsteps 2 (by norm_num) (.setExploit _ (.setL _ ht)),
    rfl, rfl, rfl⟩

theorem generations_three {env : Env n} {sf : SurrFuncs n M} {t t1 t2 t3 : Surr n M}
    (h1 : t.simpleGeneration env sf = .ok t1) (h2 : t1.simpleGeneration env sf = .ok t2)
    (h3 : t2.simpleGeneration env sf = .ok t3) :
    t.simpleGenerations env sf 2 = .ok t2 ∧ t.simpleGenerations env sf 3 = .ok t3 := by
  unfold simpleGenerations simpleGenerations simpleGenerations simpleGenerations
  rw [h1, Out.ok_bind, Out.ok_bind, h2, Out.ok_bind, Out.ok_bind, h3]
  exact ⟨rfl, rfl⟩

/-- The best candidates after a generation that used the model only. -/
theorem quiet_best {env : Env n} {sf : SurrFuncs n M} {g : Vec n → FVal} {t t' : Surr n M}
    (hp : Pointwise sf fun _ _ _ => g) (hL : SimpleLive t) (h0 : t.s.niter ≠ 0)
    (hm : 0 < t.s.sol.maxHist) (hq : t.trueEval = .ok false) (h : t.simpleGeneration env sf = .ok t') :
    t'.s.sol.bestCandidate.fvalue = g t'.s.sol.bestCandidate.x ∧
      ∃ b, t'.s.sol.bestSeen = some b ∧ ¬ FVal.lt (g t'.s.sol.bestCandidate.x) b.fvalue := by
  have hl2 := hL.live.good.lambda
  obtain ⟨pop, s1, cs0, _, _, h3, _, _, _, sol3, sol4, h4, h5, h6, hb, h7, h8⟩ :=
    quiet_generation hp hL.live.uh hL.live.cands (by omega) hq h
  obtain ⟨c0, ck, cl, med, hc0, _, _, _, e3, a1, a2, a3, a4, _⟩ := Sol.updateBest_ok hb
  have hlast : t'.s.sol.bestHist.getLast? = some c0 := by
    rw [h8, e3]
    simp only
    split_ifs with hif
    · rw [List.getLast?_tail, if_neg]
      · simp
      · intro hlen
        rw [hlen] at hif
        omega
    · simp
  have hbc : t'.s.sol.bestCandidate = c0 := by
    unfold Sol.bestCandidate
    rw [hlast]
  have hc0v : c0.fvalue = g c0.x := by
    rw [h4] at hc0
    obtain ⟨d, _, rfl⟩ := List.mem_map.1 (h3.mem_iff.1 (List.mem_of_getElem? hc0))
    rfl
  rw [hbc]
  refine ⟨hc0v, ?_⟩
  obtain ⟨b, hbs⟩ := Option.isSome_iff_exists.1 (hL.live.seen h0)
  rw [h7]
  by_cases hlt : FVal.lt c0.fvalue b.fvalue
  · exact ⟨c0, (a3 b (h5.trans hbs) hlt).1, by rw [← hc0v]; exact FVal.lt_irrefl _⟩
  · exact ⟨b, (a4 b (h5.trans hbs) hlt).1, by rw [← hc0v]; exact hlt⟩

end Surr

end Libcmaes
