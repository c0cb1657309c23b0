import Verif.Props.Milp
import Verif.Props.Certificates

/-!
# C85: the methods agree
-/

namespace Verif.Props
open Spec Model Finset

variable {env env' : Env} {cfg cfg' : Cfg} {I : Inst} {rounds rounds' fuel fuel' : ℕ}

/-- `l` is the value of a feasible point, and no feasible point exceeds it by more than the
factor `1 + gap`. -/
def Certified (I : Inst) (gap l : ℚ) : Prop :=
  (∃ x, Feas I x ∧ obj I x = l) ∧ ∀ y, Feas I y → obj I y ≤ (1 + gap) * l

/-- Two certified values are close. -/
theorem Certified.agree {gap gap' l l' : ℚ} (h : Certified I gap l) (h' : Certified I gap' l') :
    l ≤ (1 + gap') * l' ∧ l' ≤ (1 + gap) * l := by
  obtain ⟨⟨x, hx, rfl⟩, h⟩ := h
  obtain ⟨⟨x', hx', rfl⟩, h'⟩ := h'
  exact ⟨h' x hx, h x' hx'⟩

/-- `solve` stopped because it is done, not because of the time limit: with a feasible solution
(then the partitioned problems must be solved to optimality) or with a small gap. -/
structure Done (env : Env) (cfg : Cfg) (b : Bool) (g : Gap) : Prop where
  gap0 : 0 ≤ cfg.gap
  gap1 : cfg.gap < 1
  why : b = true ∧ Tight env ∨ b = false ∧ g.le cfg.gap = true

theorem adaptive_certified (hC : Contract env I) (hsharp : ∀ x, InX I x → Sharp I x) {b : Bool} {g : Gap}
    {s : St} (h : run env cfg I rounds fuel = .ok (.ok (b, g), s)) (hd : Done env cfg b g) :
    ∃ l : ℚ, s.vLB = l ∧ Certified I cfg.gap l := by
  obtain ⟨h0, h1, ⟨rfl, ht⟩ | ⟨rfl, hg⟩⟩ := hd
  · obtain ⟨x, -, -, -, a4, a5, a6, -, a8⟩ := C51_feasible_stop_optimal hC ht g s h
    refine ⟨_, a4, ⟨x, a8 (hsharp x a6), rfl⟩, fun y hy => (a5 y hy).trans ?_⟩
    have := obj_nonneg hC.c a6
    nlinarith
  · obtain ⟨x, -, a2, a3, -, a5⟩ := C52_gap_stop_certifies hC h1 g s h hg
    exact ⟨_, a3, ⟨x, a2, rfl⟩, a5⟩

/-- **C85 (during the runs).** At no moment of a run is the lower bound above an upper bound of
another run on the same instance, whatever the configurations, answers and random choices and
however the runs end. -/
theorem C85_never_contradict (hC : Contract env I) (hC' : Contract env' I)
    (r r' : Except PyErr (Bool × Gap)) (s s' : St) (h : run env cfg I rounds fuel = .ok (r, s))
    (h' : run env' cfg' I rounds' fuel' = .ok (r', s')) :
    ∀ p ∈ s.trace, ∀ p' ∈ s'.trace, ∀ v : ℚ, p.2 = v → (v : WithTop ℚ) ≤ p'.1 := by
  intro p hp p' hp' v hv
  obtain ⟨x, hx, rfl⟩ := ((C50_bounds_bracket_partial hC r s h).1 p hp).2 v hv
  exact ((C50_bounds_bracket_partial hC' r' s' h').1 p' hp').1 x hx

/-- **C85 (adaptive).** Two runs of the adaptive method on an instance that both are done agree:
each lower bound is within the other run's gap of the other's lower bound, whatever the
refiners, mergers, big-Ms, initial partitions, random choices and answers. -/
theorem C85_adaptive_agree (hC : Contract env I) (hC' : Contract env' I)
    (hsharp : ∀ x, InX I x → Sharp I x) (b b' : Bool) (g g' : Gap) (s s' : St)
    (h : run env cfg I rounds fuel = .ok (.ok (b, g), s)) (hd : Done env cfg b g)
    (h' : run env' cfg' I rounds' fuel' = .ok (.ok (b', g'), s')) (hd' : Done env' cfg' b' g') :
    ∃ l l' : ℚ, s.vLB = l ∧ s'.vLB = l' ∧ l ≤ (1 + cfg'.gap) * l' ∧ l' ≤ (1 + cfg.gap) * l := by
  obtain ⟨l, e, c⟩ := adaptive_certified hC hsharp h hd
  obtain ⟨l', e', c'⟩ := adaptive_certified hC' hsharp h' hd'
  exact ⟨l, l', e, e', c.agree c'⟩

/-- The extended formulation is solved to status `OPTIMAL`, within the gap. -/
def MilpDone (env : Env) (gap : ℚ) : Prop :=
  ∀ g, GResult.Valid g (env.cc 0 g) ∧ (g.mipGap = gap → (env.cc 0 g).sol.isSome →
    (env.cc 0 g).status = 2 ∧ GResult.WithinGap g (env.cc 0 g))

/-- Belotti's big-Ms need exact bounds. -/
def MilpMethod (env : Env) (useBigM : Bool) (method : String) : Prop :=
  useBigM = true → method = "naive" ∨ method = "song"
    ∨ method = "belotti" ∧ (∀ k g, GResult.Exact g (env.sub 0 k g))
      ∧ ∀ g, GResult.Answers g (env.big 0 g)

theorem milp_certified (hE : Equi I) (heps : 0 ≤ I.eps) (hm : 0 < I.m) (hn : 0 < I.n)
    (hI : NonnegAb I) (hc : NonnegC I) {timeLimit gap : ℚ} {useBigM : Bool} {method : String}
    (hmeth : MilpMethod env useBigM method) (hdone : MilpDone env gap) {r : MilpSt}
    (h : milpSolve env I timeLimit gap useBigM method = .ok r) : Certified I gap r.vLB := by
  have key : MilpOk I r ∧ r.vUB ≤ (1 + gap) * r.vLB := by
    cases useBigM with
    | false =>
      obtain ⟨k1, -, k2⟩ := (C57_milp env I hE heps hm hn hI hc timeLimit gap false method
        (by rintro ⟨⟩)).1 (fun g => (hdone g).1) r h
      exact ⟨k1, k2 fun g => (hdone g).2⟩
    | true =>
      rcases hmeth rfl with hmt | hmt | ⟨rfl, h1, h2⟩
      · obtain ⟨k1, -, k2⟩ := (C57_milp env I hE heps hm hn hI hc timeLimit gap true method
          (fun _ => .inl hmt)).1 (fun g => (hdone g).1) r h
        exact ⟨k1, k2 fun g => (hdone g).2⟩
      · obtain ⟨k1, -, k2⟩ := (C57_milp env I hE heps hm hn hI hc timeLimit gap true method
          (fun _ => .inr hmt)).1 (fun g => (hdone g).1) r h
        exact ⟨k1, k2 fun g => (hdone g).2⟩
      · obtain ⟨k1, -, k2⟩ := (C57_belotti_partial env I hE heps hI hc h1 h2 timeLimit gap).1
          (fun g => (hdone g).1) r h
        exact ⟨k1, k2 fun g => (hdone g).2⟩
  exact ⟨⟨r.xLB, key.1.feas, key.1.obj⟩, fun y hy => (key.1.bound y hy).trans key.2⟩

/-- **C85 (adaptive and MILP).** The adaptive method and the extended formulation, with any
big-Ms or indicator constraints, agree up to their gaps. -/
theorem C85_adaptive_milp_agree (hC : Contract env I) (hsharp : ∀ x, InX I x → Sharp I x)
    (b : Bool) (g : Gap) (s : St)
    (h : run env cfg I rounds fuel = .ok (.ok (b, g), s)) (hd : Done env cfg b g)
    (timeLimit gap : ℚ) (useBigM : Bool) (method : String) (hmeth : MilpMethod env' useBigM method)
    (hdone : MilpDone env' gap) (r : MilpSt)
    (h' : milpSolve env' I timeLimit gap useBigM method = .ok r) :
    ∃ l : ℚ, s.vLB = l ∧ l ≤ (1 + gap) * r.vLB ∧ r.vLB ≤ (1 + cfg.gap) * l := by
  obtain ⟨l, e, c⟩ := adaptive_certified hC hsharp h hd
  exact ⟨l, e, c.agree (milp_certified hC.equi hC.eps hC.m hC.n hC.ab hC.c hmeth hdone h')⟩

/-- **C85 (MILP).** Two solves of the extended formulation agree up to their gaps, whatever the
big-Ms. -/
theorem C85_milp_agree (hE : Equi I) (heps : 0 ≤ I.eps) (hm : 0 < I.m) (hn : 0 < I.n)
    (hI : NonnegAb I) (hc : NonnegC I) (timeLimit timeLimit' gap gap' : ℚ) (useBigM useBigM' : Bool)
    (method method' : String) (hmeth : MilpMethod env useBigM method)
    (hmeth' : MilpMethod env' useBigM' method') (hdone : MilpDone env gap) (hdone' : MilpDone env' gap')
    (r r' : MilpSt) (h : milpSolve env I timeLimit gap useBigM method = .ok r)
    (h' : milpSolve env' I timeLimit' gap' useBigM' method' = .ok r') :
    r.vLB ≤ (1 + gap') * r'.vLB ∧ r'.vLB ≤ (1 + gap) * r.vLB :=
  (milp_certified hE heps hm hn hI hc hmeth hdone h).agree
    (milp_certified hE heps hm hn hI hc hmeth' hdone' h')

/-! ## A case in point -/

theorem exTight_contract : Contract exTight exPairs := by
  have h := exPairs_contract
  exact ⟨h.equi, h.eps, h.tolOk, h.ab, h.c, h.m, h.n, h.sub, h.sharp,
    fun _ g => tightSolver_valid g, h.lb, h.acc, h.big⟩

theorem exTight_milpDone {gap : ℚ} (hgap : 0 ≤ gap) : MilpDone exTight gap := by
  refine fun g => ⟨tightSolver_valid g, fun hg hs => ?_⟩
  obtain ⟨ρ, hρ⟩ := Option.isSome_iff_exists.1 hs
  obtain ⟨h1, h2⟩ := tightSolver_solved g ρ hρ
  refine ⟨h2, fun _ => ?_⟩
  show |(tightSolver g).objBnd - (tightSolver g).objVal| ≤ g.mipGap * |(tightSolver g).objVal|
  rw [h1, hg]
  simpa using mul_nonneg hgap (abs_nonneg _)

/-- The hypotheses hold for the adaptive method with and without merging and for the extended
formulation with naive big-Ms; the three values are the same. -/
example : Contract exTight exPairs ∧ (∀ x, InX exPairs x → Sharp exPairs x)
    ∧ (∀ g, Done exTight exCfg true g) ∧ (∀ g, Done exTight { exCfg with useMerger := false } true g)
    ∧ MilpDone exTight (1 / 10 ^ 4) ∧ MilpMethod exTight true "naive"
    ∧ (outcome (run exTight exCfg exPairs 10 10)).map (fun o => (o.result, o.trace.getLast?))
      = some (some (true, Gap.fin 1), some ((1 : WithTop ℚ), (1 : WithBot ℚ)))
    ∧ (outcome (run exTight { exCfg with useMerger := false } exPairs 10 10)).map
        (fun o => (o.result, o.trace.getLast?))
      = some (some (true, Gap.fin 1), some ((1 : WithTop ℚ), (1 : WithBot ℚ)))
    ∧ (milpSolve exTight exPairs 1800 (1 / 10 ^ 4) true "naive").map (fun r => (r.vUB, r.vLB))
      = .ok (1, 1) := by
  have hT : Tight exTight := fun _ g ρ h => tightSolver_tight g ρ h
  refine ⟨exTight_contract, fun x hx => sharp_of_grid ⟨exPairs_contract.ab, fun s _ i _ =>
      ⟨⟨10, by norm_num [exPairs]⟩, fun j _ => ?_⟩⟩ rfl hx,
    fun g => ⟨by norm_num [exCfg], by norm_num [exCfg], .inl ⟨rfl, hT⟩⟩,
    fun g => ⟨by norm_num [exCfg], by norm_num [exCfg], .inl ⟨rfl, hT⟩⟩,
    exTight_milpDone (by norm_num), fun _ => .inl rfl, by decide +kernel, by decide +kernel,
    by decide +kernel⟩
  by_cases h : j = 2 ∨ ((s % 2 = 0) ↔ (j = 0))
  · exact ⟨10, by simp only [exPairs, if_pos h]; norm_num⟩
  · exact ⟨20, by simp only [exPairs, if_neg h]; norm_num⟩

end Verif.Props
