import Verif.Lemmas.GapRun
import Verif.Props.Certificates

/-!
# C79: certificates when solutions violate scenarios within the tolerance
-/

namespace Verif.Props
open Spec Model Finset

variable {env : Env} {cfg : Cfg} {I : Inst} {rounds fuel : ℕ}

/-- **C79.** Continuous or binary variables, any configuration, exact subset costs and valid other
answers, solutions that may violate scenarios by less than the tolerance `1e-6` of `is_feasible`.
In every run, however it ends: after every assignment to a bound, the objective of every feasible
point is at most `vUB` or at most `vLB`, and `vLB`, once set, is the objective of a point of the
variable domain that violates at most `epsilon * N` scenarios by more than the tolerance;
if `solve` stops on the gap, `xLB` is such a point, with objective `vLB`, and every feasible point
has objective at most `(1 + gap) * vLB`;
if `solve` stops because the upper-bound solution is feasible, the partitioned problems being solved
to optimality, then `xUB = xLB` is such a point, with objective `vUB = vLB`, and every feasible
point has objective at most `vUB` or at most one of the earlier values of `vLB`. -/
theorem C79_tolerance (hC : TolContract env I) (hgap : 0 ≤ cfg.gap)
    (r : Except PyErr (Bool × Gap)) (s : St) (h : run env cfg I rounds fuel = .ok (r, s)) :
    (∀ p ∈ s.trace,
      (∀ y, Feas I y → ∀ u : ℚ, p.1 = u → obj I y ≤ u ∨ ∃ l : ℚ, p.2 = l ∧ obj I y ≤ l)
      ∧ ∀ v : ℚ, p.2 = v → ∃ x, InX I x
        ∧ ((violBy I (1 / 10 ^ 6) x).card : ℚ) ≤ I.eps * I.N ∧ obj I x = v)
    ∧ (∀ g, r = .ok (false, g) → cfg.gap < 1 → g.le cfg.gap = true →
      ∃ x, s.xLB = some x ∧ InX I x ∧ ((violBy I (1 / 10 ^ 6) x).card : ℚ) ≤ I.eps * I.N
        ∧ s.vLB = (obj I x : WithBot ℚ)
        ∧ ∀ y, Feas I y → obj I y ≤ (1 + cfg.gap) * obj I x)
    ∧ (∀ g, r = .ok (true, g) → Tight env →
      ∃ x, s.xUB = some x ∧ s.xLB = some x
        ∧ InX I x ∧ ((violBy I (1 / 10 ^ 6) x).card : ℚ) ≤ I.eps * I.N
        ∧ s.vUB = (obj I x : WithTop ℚ) ∧ s.vLB = (obj I x : WithBot ℚ)
        ∧ ∀ y, Feas I y → obj I y ≤ obj I x
          ∨ ∃ p ∈ s.trace, ∃ l : ℚ, p.2 = l ∧ obj I y ≤ l) := by
  obtain ⟨s', h1, h2, h3, h4, h5, h6⟩ :=
    run_near hC.near (fun _ => ⟨trivial, fun _ => ⟨rfl, hgap, hC.big⟩⟩) h
  have hcov : ∀ {u l y}, Covered 0 I u l y →
      ∀ u' : ℚ, u = u' → obj I y ≤ u' ∨ ∃ l' : ℚ, l = l' ∧ obj I y ≤ l' := by
    intro u l y hc u' hu
    rcases hc u' hu with hc | ⟨l', hl, hc⟩
    · exact .inl (by linarith)
    · exact .inr ⟨l', hl, by linarith⟩
  refine ⟨fun p hp => ?_, fun g hr hg1 hg => ?_, fun g hr ht => ?_⟩
  · obtain ⟨t1, t2⟩ := h1.trace p (h3 ▸ hp)
    refine ⟨fun y hy => hcov (t1 y hy), fun v hv => ?_⟩
    obtain ⟨x, ⟨x1, x2⟩, x3⟩ := t2 v hv
    exact ⟨x, x1, x2, x3⟩
  · subst hr
    obtain rfl := h4 (by rintro g' ⟨⟩)
    rcases h5 g hg1 rfl with hno | ⟨b, hb⟩
    · exact absurd hg hno
    cases hl : s'.vLB with
    | bot => rw [hl] at hb; cases hb; cases hg
    | coe l =>
      obtain ⟨x, x1, ⟨x2, x2'⟩, x3⟩ := h1.lb l hl
      refine ⟨x, x1, x2, x2', by rw [x3], fun y hy => ?_⟩
      have hl0 : 0 ≤ l := x3 ▸ obj_nonneg hC.c x2
      have hy0 := obj_nonneg hC.c hy.1
      have hlow : l ≤ (1 + cfg.gap) * l := by linarith [mul_nonneg hgap hl0]
      rw [x3]
      cases hu : s'.vUB with
      | top => rw [hl, hu] at hb; cases hb; cases hg
      | coe u =>
        rcases hcov (h1.ub y hy) u hu with hc | ⟨l', hl', hc⟩
        · rcases hl0.lt_or_eq with hpos | hz
          · rw [hl, hu] at hb
            unfold computeGap at hb
            simp only [if_neg hpos.ne'] at hb
            cases hb
            simp only [Gap.le, decide_eq_true_eq] at hg
            rw [div_le_iff₀ hpos] at hg
            linarith
          · exfalso
            subst hz
            rw [hl, hu] at hb
            unfold computeGap at hb
            simp only [if_true] at hb
            split at hb
            · rw [if_neg (not_lt.2 (hy0.trans hc))] at hb
              split at hb <;> cases hb <;> cases hg
            · cases hb
        · rw [hl] at hl'
          obtain rfl := WithBot.coe_injective hl'
          exact hc.trans hlow
  · obtain ⟨⟨out, o1, o2, o3⟩, a2, a3, a4⟩ := h6 g hr
    obtain ⟨b1, b2⟩ := o3 rfl hgap ht
    have hv : ((violBy I (1 / 10 ^ 6) out.x).card : ℚ) ≤ I.eps * I.N := by
      have := (C01_is_feasible_verdict env.norm I out.x).1.1 o2
      rw [show (1 : ℚ) / 10 ^ 6 = 1 / 1000000 by norm_num]
      exact this
    refine ⟨out.x, a2.trans b2, a3.trans b2, o1.point.1, hv, ?_, ?_, fun y hy => ?_⟩
    · rw [h2, b1, o1.obj]
    · rw [a4 _ b1, o1.obj]
    · rcases hcov (h1.ub y hy) _ b1 with hc | ⟨l, hl, hc⟩
      · exact .inl (by rw [o1.obj]; exact hc)
      · exact .inr ⟨_, h3 ▸ h1.last, l, hl, hc⟩

/-! ## Example -/

/-- The run of `C50_counterexample`, to its end. -/
noncomputable def exFineEnv : Env := { exactEnv exNorm 1 with sub := fun _ _ => exFineSolver }

/-- A continuous instance on which `vLB` exceeds every feasible objective: C79 holds, C50 fails. -/
example : TolContract exFineEnv exFine ∧ 0 ≤ exCfg.gap ∧ exFine.cont = true
    ∧ (outcome (run exFineEnv exCfg exFine 10 10)).map (fun o => (o.error, o.result))
      = some (none, some (true, Gap.fin 1))
    ∧ (outcome (run exFineEnv exCfg exFine 10 10)).map (·.trace)
      = some ([(⊤, ⊥), (⊤, (500001 / 1000000 : ℚ)),
          ((500001 / 1000000 : ℚ), (500001 / 1000000 : ℚ))] : List (WithTop ℚ × WithBot ℚ)) :=
  ⟨⟨⟨by decide, fun s _ => by norm_num [exFine]⟩, by decide +kernel, by decide +kernel,
    by unfold NonnegAb; decide +kernel, by unfold NonnegC; decide +kernel, by decide, by decide,
    fun _ _ g => exFineSolver_exact g, fun _ g => (exactSolver_exact g).answers.valid,
    fun _ g => (exactSolver_exact g).answers.valid, fun _ _ g => (exactSolver_exact g).answers,
    fun _ g => (exactSolver_exact g).answers⟩, by decide +kernel, rfl, by decide +kernel,
    by decide +kernel⟩

/-- A stop on the gap, with binary variables. -/
example : TolContract (exactEnv exNorm 1) { exPairs with c := fun j => if j = 2 then 2 else 3 }
    ∧ (outcome (run (exactEnv exNorm 1) { exCfg with gap := 1 / 2 }
        { exPairs with c := fun j => if j = 2 then 2 else 3 } 10 10)).map
        (fun o => (o.error, o.result)) = some (none, some (false, Gap.fin (1 / 2))) := by
  have h := exPairs_contract' (fun j => if j = 2 then 2 else 3) (by decide +kernel)
  exact ⟨⟨h.equi, h.eps, h.tolOk, h.ab, h.c, h.m, h.n, h.sub, h.cc, h.lb, h.acc, h.big⟩,
    by decide +kernel⟩

end Verif.Props
