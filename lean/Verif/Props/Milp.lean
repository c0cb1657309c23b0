import Verif.Model.MilpSolver
import Verif.Lemmas.Certify
import Verif.Lemmas.ExactSolver

/-!
# C57, C58: the extended formulation, and bounds from subset problems solved within a gap
-/

open Finset

namespace Verif.Props
open Spec Model

variable {I : Inst}

/-! ## The extended formulation -/

/-- The assignment that selects the satisfied scenarios. -/
def scenPoint (I : Inst) (y : Vec) : V → ℚ
  | .x j => y j
  | .z s => if Sat I s y then 1 else 0
  | _ => 0

theorem inst_points (hE : Equi I) {bigM : Option (List (List ℚ))}
    (hM : ∀ Ms, bigM = some Ms → SameSolutions (instCI I) Ms) (gap : ℚ) :
    ∃ g, buildCCLP (instCI I) bigM [] [] gap = .ok g ∧ g.obj = objExpr (instCI I)
      ∧ g.maximize = true ∧ g.mipGap = gap
      ∧ (∀ ρ, g.Feas ρ → Feas I fun j => ρ (.x j))
      ∧ ∀ y, Feas I y → g.Feas (scenPoint I y) := by
  obtain ⟨g0, h1, h2, h3, h5, h4⟩ := buildCCLP_ok (instCI I) none (by rintro _ ⟨⟩) [] [] gap
    (by simp) (by simp)
  have key : (∀ ρ, g0.Feas ρ → Feas I fun j => ρ (.x j))
      ∧ ∀ y, Feas I y → g0.Feas (scenPoint I y) := by
    constructor
    · intro ρ hρ
      obtain ⟨⟨a1, a2, a3, -⟩, a4⟩ := (h4 ρ).1 hρ
      exact ⟨a1, zOk_chance hE (z := fun s => ρ (.z s)) ⟨a2, a3, a4⟩⟩
    · intro y hy
      refine (h4 _).2 ⟨⟨hy.1, fun s _ => ?_, ?_, by simp⟩, fun s hs hz1 => ?_⟩
      · show (if Sat I s y then (1 : ℚ) else 0) = 0 ∨ (if Sat I s y then (1 : ℚ) else 0) = 1
        split
        · right; rfl
        · left; rfl
      · show ∑ s ∈ range I.N, I.proba s * (if Sat I s y then 1 else 0) ≥ 1 - I.eps
        have hN : (0 : ℚ) < I.N := by exact_mod_cast hE.1
        have hone : ∑ s ∈ range I.N, I.proba s = 1 := by
          rw [Finset.sum_congr rfl fun s hs => hE.2 s (Finset.mem_range.1 hs)]
          simp [hN.ne']
        have h6 := hy.2
        unfold Chance viol at h6
        rw [Finset.sum_filter] at h6
        have : ∑ s ∈ range I.N, I.proba s * (if Sat I s y then 1 else 0)
            = ∑ s ∈ range I.N, I.proba s - ∑ s ∈ range I.N, if ¬ Sat I s y then I.proba s else 0 := by
          rw [← Finset.sum_sub_distrib]
          refine Finset.sum_congr rfl fun s _ => ?_
          by_cases hs : Sat I s y <;> simp [hs]
        rw [this, hone]
        linarith
      · show Sat I s y
        by_contra hno
        have : (if Sat I s y then (1 : ℚ) else 0) = 1 := hz1
        rw [if_neg hno] at this
        norm_num at this
  cases bigM with
  | none => exact ⟨g0, h1, h2, h3, h5, key.1, key.2⟩
  | some Ms =>
    obtain ⟨k, k0, b1, b2, b3, b4, -, b6⟩ := hM Ms rfl [] [] gap (by simp) (by simp)
    rw [h1] at b2
    cases b2
    refine ⟨_, b1, b3.trans h2, b4, ?_, fun ρ hρ => key.1 ρ ((b6 ρ).1 hρ),
      fun y hy => (b6 _).2 (key.2 y hy)⟩
    unfold buildCCLP at b1
    simp only [bind, Except.bind, pure, Except.pure] at b1
    repeat' split at b1
    all_goals first
      | (cases b1; done)
      | (simp only [Except.ok.injEq] at b1; rw [← b1]; rfl)

/-- What `MilpSolver.solve` promises: the reported point satisfies the chance constraint, `vLB`
is its objective, `vUB` bounds the objective of every feasible point. -/
structure MilpOk (I : Inst) (r : MilpSt) : Prop where
  feas : Feas I r.xLB
  obj : Spec.obj I r.xLB = r.vLB
  bound : ∀ y, Feas I y → Spec.obj I y ≤ r.vUB

/-- The extended formulation with equivalent big-Ms. -/
theorem milp_spec (hE : Equi I) (heps : 0 ≤ I.eps) (hI : NonnegAb I) (hc : NonnegC I)
    {bigM : Option (List (List ℚ))}
    (hM : ∀ Ms, bigM = some Ms → SameSolutions (instCI I) Ms) (gap limit build : ℚ)
    (solve : GModel → GResult) :
    ((∀ g, GResult.Valid g (solve g)) →
      ∀ out, solveCclp (instCI I) bigM [] [] gap limit build solve = .ok out →
        Feas I out.x ∧ obj I out.x = out.vObj ∧ (∀ y, Feas I y → obj I y ≤ out.vBnd)
        ∧ ((∀ g, g.mipGap = gap → (solve g).sol.isSome →
            (solve g).status = 2 ∧ GResult.WithinGap g (solve g)) →
            out.vBnd ≤ out.vObj + gap * out.vObj))
    ∧ ((∀ g, GResult.Answers g (solve g)) → build ≤ limit →
        ∃ out, solveCclp (instCI I) bigM [] [] gap limit build solve = .ok out) := by
  obtain ⟨g, h1, h2, h3, h4, p1, p2⟩ := inst_points hE hM gap
  have hev : ∀ ρ, g.obj.eval ρ = obj I fun j => ρ (.x j) := fun ρ => by
    rw [h2, eval_objExpr]; rfl
  have hbd : g.Bounded := by
    refine ⟨∑ j ∈ range I.n, I.c j, fun ρ hρ => ?_⟩
    rw [if_pos h3, hev]
    unfold Spec.obj dot
    refine Finset.sum_le_sum fun j hj => ?_
    have hj := Finset.mem_range.1 hj
    exact mul_le_of_le_one_right (hc j hj) (inX_box (p1 ρ hρ).1 j hj).2
  have hrun : solveCclp (instCI I) bigM [] [] gap limit build solve
      = (setTimeLimit (limit - build) >>= fun _ => do
      let r ← optimize (solve g)
      let ρ ← getSol r
      let v ← getObjVal r
      pure { x := fun j => ρ (.x j), z := (List.range (instCI I).nbScen).map fun s => ρ (.z s)
             vObj := v, vBnd := r.objBnd }) := by
    unfold solveCclp
    rw [h1]
    rfl
  rw [hrun]
  constructor
  · intro hv out hout
    by_cases h0 : 0 ≤ limit - build
    swap
    · rw [setTimeLimit, if_neg h0] at hout; cases hout
    rw [setTimeLimit, if_pos h0] at hout
    replace hout : (do
      let r ← optimize (solve g)
      let ρ ← getSol r
      let v ← getObjVal r
      pure { x := fun j => ρ (.x j), z := (List.range (instCI I).nbScen).map fun s => ρ (.z s)
             vObj := v, vBnd := r.objBnd } : PyM UBOut) = .ok out := hout
    unfold optimize at hout
    split at hout
    · cases hout
    · simp only [bind, Except.bind] at hout
      unfold getSol getObjVal at hout
      cases hs : (solve g).sol with
      | none => rw [hs] at hout; cases hout
      | some ρ =>
        rw [hs] at hout
        cases hout
        obtain ⟨f1, f2⟩ := (hv g).feas ρ hs
        have hval : obj I (fun j => ρ (.x j)) = (solve g).objVal := by rw [← f2, hev]
        have hb : ∀ y, Feas I y → obj I y ≤ (solve g).objBnd := fun y hy => by
          have := (hv g).bound hbd _ (p2 y hy)
          rw [if_pos h3, hev] at this
          exact this
        refine ⟨p1 ρ f1, hval, hb, fun hst => ?_⟩
        obtain ⟨hst1, hst2⟩ := hst g h4 (by rw [hs]; rfl)
        have hw := hst2 hst1
        have h0 : 0 ≤ (solve g).objVal := by
          rw [← hval]
          exact Finset.sum_nonneg fun j hj => mul_nonneg (hc j (Finset.mem_range.1 hj))
            (inX_box (p1 ρ f1).1 j (Finset.mem_range.1 hj)).1
        rw [h4, abs_of_nonneg h0] at hw
        have := le_abs_self ((solve g).objBnd - (solve g).objVal)
        show (solve g).objBnd ≤ (solve g).objVal + gap * (solve g).objVal
        linarith
  · intro hans hle
    have hpt : ∃ ρ, g.Feas ρ := by
      refine ⟨_, p2 (fun _ => 0) ⟨zero_inX I, ?_⟩⟩
      unfold Chance viol
      rw [Finset.filter_false_of_mem]
      · simpa using heps
      · intro s hs
        rw [not_not]
        exact zero_sat hI (Finset.mem_range.1 hs)
    obtain ⟨ρ, hs⟩ := Option.isSome_iff_exists.1 ((hans g).solved hbd hpt)
    rw [setTimeLimit, if_pos (by linarith)]
    unfold optimize getSol getObjVal
    rw [if_neg (hans g).notInterrupted]
    simp only [bind, Except.bind, hs]
    exact ⟨_, rfl⟩

theorem MilpOk.optimal {r : MilpSt} (h : MilpOk I r) (he : r.vUB = r.vLB) : IsOptimal I r.xLB :=
  ⟨h.feas, fun y hy => by rw [h.obj, ← he]; exact h.bound y hy⟩

theorem milpSolve_inv {env : Env} {timeLimit gap : ℚ} {useBigM : Bool} {method : String}
    {r : MilpSt} (h : milpSolve env I timeLimit gap useBigM method = .ok r) :
    ∃ bigM out, milpBigMOpt env I useBigM method = .ok bigM
      ∧ milpCall env I timeLimit gap useBigM bigM = .ok out
      ∧ r.xLB = out.x ∧ r.vLB = out.vObj ∧ r.vUB = out.vBnd := by
  unfold milpSolve at h
  cases hb : milpBigMOpt env I useBigM method with
  | error e => rw [hb] at h; cases h
  | ok bigM =>
    rw [hb] at h
    simp only [bind, Except.bind] at h
    cases ho : milpCall env I timeLimit gap useBigM bigM with
    | error e => rw [ho] at h; cases h
    | ok out =>
      rw [ho] at h
      cases h
      exact ⟨bigM, out, rfl, ho, rfl, rfl, rfl⟩

theorem milpSolve_ok {env : Env} {timeLimit gap : ℚ} {useBigM : Bool} {method : String}
    {bigM : Option (List (List ℚ))} {out : UBOut}
    (hb : milpBigMOpt env I useBigM method = .ok bigM)
    (ho : milpCall env I timeLimit gap useBigM bigM = .ok out) :
    ∃ r, milpSolve env I timeLimit gap useBigM method = .ok r := by
  unfold milpSolve
  rw [hb]
  simp only [bind, Except.bind]
  rw [ho]
  exact ⟨_, rfl⟩

/-- A model built within the time limit is given a non-negative time limit. -/
theorem milp_inTime {clock : ℕ → ℚ} {limit : ℚ} (hmono : Monotone clock)
    (hin : clock 5 - clock 0 ≤ limit) (useBigM : Bool) :
    clock (milpReads useBigM + 4) - clock (milpReads useBigM + 3)
      ≤ remaining clock limit (milpReads useBigM + 1) := by
  have h1 : clock (milpReads useBigM + 4) ≤ clock 5 := hmono (by cases useBigM <;> decide)
  have h2 : clock (milpReads useBigM + 1) ≤ clock (milpReads useBigM + 3) := hmono (by omega)
  exact le_trans (by linarith) (le_max_left _ _)

/-- Everything follows from equivalent big-Ms. -/
theorem milpSolve_spec {env : Env} (hE : Equi I) (heps : 0 ≤ I.eps) (hI : NonnegAb I)
    (hc : NonnegC I) {timeLimit gap : ℚ} {useBigM : Bool} {method : String}
    (hM : useBigM = true → ∀ Ms, milpBigM env.argsort env.srt (env.sub 0) (env.big 0) I method
      = .ok Ms → SameSolutions (instCI I) Ms) :
    ((∀ g, GResult.Valid g (env.cc 0 g)) →
      ∀ r, milpSolve env I timeLimit gap useBigM method = .ok r →
        MilpOk I r ∧ (r.vUB = r.vLB → IsOptimal I r.xLB)
        ∧ ((∀ g, g.mipGap = gap → (env.cc 0 g).sol.isSome →
            (env.cc 0 g).status = 2 ∧ GResult.WithinGap g (env.cc 0 g)) →
            r.vUB ≤ (1 + gap) * r.vLB))
    ∧ ((∀ g, GResult.Answers g (env.cc 0 g)) →
        Monotone env.clock → env.clock 5 - env.clock 0 ≤ timeLimit →
        (useBigM = true →
          ∃ Ms, milpBigM env.argsort env.srt (env.sub 0) (env.big 0) I method = .ok Ms) →
        ∃ r, milpSolve env I timeLimit gap useBigM method = .ok r) := by
  constructor
  · intro hv r hr
    obtain ⟨bigM, out, h1, h2, h3, h4, h5⟩ := milpSolve_inv hr
    have hM' : ∀ Ms, bigM = some Ms → SameSolutions (instCI I) Ms := by
      rintro Ms rfl
      cases hu : useBigM with
      | false => rw [hu] at h1; cases h1
      | true =>
        rw [hu, milpBigMOpt, if_pos rfl] at h1
        cases hb : milpBigM env.argsort env.srt (env.sub 0) (env.big 0) I method with
        | error e => rw [hb] at h1; cases h1
        | ok Ms' =>
          rw [hb] at h1
          cases h1
          exact hM hu _ hb
    obtain ⟨a1, a2, a3, a4⟩ := (milp_spec hE heps hI hc hM' gap _ _ (env.cc 0)).1 hv out h2
    have hok : MilpOk I r := ⟨h3 ▸ a1, by rw [h3, h4]; exact a2, by rw [h5]; exact a3⟩
    refine ⟨hok, hok.optimal, fun hst => ?_⟩
    have := a4 hst
    rw [h4, h5]
    linarith
  · intro hans hmono hin hex
    cases hu : useBigM with
    | false =>
      obtain ⟨out, ho⟩ := (milp_spec hE heps hI hc (bigM := none) (by rintro _ ⟨⟩) gap
        _ _ (env.cc 0)).2 hans (milp_inTime hmono hin false)
      exact milpSolve_ok rfl ho
    | true =>
      obtain ⟨Ms, hb⟩ := hex hu
      obtain ⟨out, ho⟩ := (milp_spec hE heps hI hc (bigM := some Ms)
        (by rintro _ ⟨⟩; exact hM hu _ hb) gap _ _ (env.cc 0)).2 hans
        (milp_inTime hmono hin true)
      exact milpSolve_ok (by rw [milpBigMOpt, if_pos rfl, hb]; rfl) ho

/-- **C57.** Indicator constraints, naive or Song big-Ms, non-negative data, any valid answer to
the extended formulation: when `solve` returns, the reported point satisfies the chance
constraint, `vLB` is its objective and `vUB` bounds every feasible objective, so that the point is
optimal if the bounds agree; a solve to status `OPTIMAL` leaves a relative gap of at most `gap`.
If Gurobi is not cut off and the clock is within the time limit when the model is built (at most
the fifth reading after the start), `solve` returns, unless Song's quantile index is out of
range. -/
theorem C57_milp (env : Env) (I : Inst) (hE : Equi I) (heps : 0 ≤ I.eps) (hm : 0 < I.m)
    (hn : 0 < I.n) (hI : NonnegAb I) (hc : NonnegC I) (timeLimit gap : ℚ) (useBigM : Bool)
    (method : String) (hmeth : useBigM = true → method = "naive" ∨ method = "song") :
    ((∀ g, GResult.Valid g (env.cc 0 g)) →
      ∀ r, milpSolve env I timeLimit gap useBigM method = .ok r →
        MilpOk I r ∧ (r.vUB = r.vLB → IsOptimal I r.xLB)
        ∧ ((∀ g, g.mipGap = gap → (env.cc 0 g).sol.isSome →
            (env.cc 0 g).status = 2 ∧ GResult.WithinGap g (env.cc 0 g)) →
            r.vUB ≤ (1 + gap) * r.vLB))
    ∧ ((∀ g, GResult.Answers g (env.cc 0 g)) →
        Monotone env.clock → env.clock 5 - env.clock 0 ≤ timeLimit →
        (useBigM = true → method = "song" → ⌊I.eps * I.N⌋₊ + 1 < I.N) →
        ∃ r, milpSolve env I timeLimit gap useBigM method = .ok r) := by
  have hnaive : milpBigM env.argsort env.srt (env.sub 0) (env.big 0) I "naive"
      = .ok (naiveAll (instCI I) I.N) := rfl
  have hsong : milpBigM env.argsort env.srt (env.sub 0) (env.big 0) I "song"
      = updateBigM env.argsort env.srt (env.big 0) (instCI I) false I.N none "song" (some I)
          none := rfl
  have hS := (C48_song_equivalent env.argsort env.srt (env.big 0) I none hE heps hm hn hI hc).1
  have hS' := (C43_song_valid env.argsort env.srt (env.big 0) I none hE heps hm hn
    fun s hs i hi => (hI s hs i hi).2).2
  have key := milpSolve_spec (env := env) hE heps hI hc (timeLimit := timeLimit) (gap := gap)
    (useBigM := useBigM) (method := method) (by
      intro hu Ms hMs
      rcases hmeth hu with rfl | rfl
      · rw [hnaive] at hMs
        cases hMs
        exact C48_naive_equivalent (instCI I) (nonnegCI_inst hI hc)
      · rw [hsong] at hMs
        by_cases hq : ⌊I.eps * I.N⌋₊ + 1 < I.N
        · obtain ⟨Ms', h1, h2⟩ := hS hq
          rw [h1] at hMs
          cases hMs
          exact h2
        · rw [hS' (by omega)] at hMs
          cases hMs)
  refine ⟨key.1, fun hans hmono hin hq => key.2 hans hmono hin fun hu => ?_⟩
  rcases hmeth hu with rfl | rfl
  · exact ⟨_, hnaive⟩
  · rw [hsong]
    exact (hS (hq hu rfl)).imp fun _ h => h.1

/-- **C57 (Belotti).**  The same with Belotti's big-Ms, but only if the single-scenario problems
are solved exactly (`C57_belotti_counterexample`); `epsilon` must leave a quantile. -/
theorem C57_belotti_partial (env : Env) (I : Inst) (hE : Equi I) (heps : 0 ≤ I.eps)
    (hI : NonnegAb I) (hc : NonnegC I)
    (hsub : ∀ k g, GResult.Exact g (env.sub 0 k g)) (hbig : ∀ g, GResult.Answers g (env.big 0 g))
    (timeLimit gap : ℚ) :
    ((∀ g, GResult.Valid g (env.cc 0 g)) →
      ∀ r, milpSolve env I timeLimit gap true "belotti" = .ok r →
        MilpOk I r ∧ (r.vUB = r.vLB → IsOptimal I r.xLB)
        ∧ ((∀ g, g.mipGap = gap → (env.cc 0 g).sol.isSome →
            (env.cc 0 g).status = 2 ∧ GResult.WithinGap g (env.cc 0 g)) →
            r.vUB ≤ (1 + gap) * r.vLB))
    ∧ ((∀ g, GResult.Answers g (env.cc 0 g)) →
        Monotone env.clock → env.clock 5 - env.clock 0 ≤ timeLimit → I.eps + 1 / 10 ^ 7 ≤ 1 →
        ∃ r, milpSolve env I timeLimit gap true "belotti" = .ok r) := by
  have hN : (0 : ℚ) < I.N := by exact_mod_cast hE.1
  have hp : ∀ s < I.N, 0 ≤ I.proba s := fun s hs => by rw [hE.2 s hs]; positivity
  have hone : ∑ s ∈ range I.N, I.proba s = 1 := by
    rw [Finset.sum_congr rfl fun s hs => hE.2 s (Finset.mem_range.1 hs)]
    simp [hN.ne']
  obtain ⟨costs, hcosts⟩ := allScenarioCosts_ok (I := I) (solve := env.sub 0) hsub
    fun s hs => ⟨_, zero_inX I, zero_satAll hI (by simpa using hs)⟩
  have hsc := allScenarioCosts_spec hsub hcosts
  have hq := C13_quantile_bound I env.argsort costs hE.1 hp hsc
  have hB := fun v => C48_belotti_equivalent env.argsort (env.big 0) hbig (instCI I)
    (nonnegCI_inst hI hc) v
  have hrun : milpBigM env.argsort env.srt (env.sub 0) (env.big 0) I "belotti"
      = match ahmedBound env.argsort costs I.proba I.eps with
        | some v => runBelotti env.argsort (env.big 0) (instCI I) I.N v
        | none => .error .typeError := by
    unfold milpBigM
    rw [if_pos rfl, hcosts]
    rfl
  have hopt : ∀ v, ahmedBound env.argsort costs I.proba I.eps = some v →
      ∃ Ms, milpBigM env.argsort env.srt (env.sub 0) (env.big 0) I "belotti" = .ok Ms
        ∧ SameSolutions (instCI I) Ms := fun v hv => by
    rw [hrun, hv]
    exact hB v fun x z hx hz => hq.1 v hv x ⟨hx, zOk_chance hE hz⟩
  have key := milpSolve_spec (env := env) hE heps hI hc (timeLimit := timeLimit) (gap := gap)
    (useBigM := true) (method := "belotti") (by
      intro _ Ms hMs
      cases ha : ahmedBound env.argsort costs I.proba I.eps with
      | none => rw [hrun, ha] at hMs; cases hMs
      | some v =>
        obtain ⟨Ms', h1, h2⟩ := hopt v ha
        rw [h1] at hMs
        cases hMs
        exact h2)
  refine ⟨key.1, fun hans hmono hin he => key.2 hans hmono hin fun _ => ?_⟩
  cases ha : ahmedBound env.argsort costs I.proba I.eps with
  | none =>
    have := hq.2.1 ha
    rw [hone] at this
    linarith
  | some v => exact (hopt v ha).imp fun _ h => h.1

/-! ## Subset problems solved within the relative gap of Gurobi -/

/-- Contract of a call without time limit that may stop within the model's `MIPGap`: a model with
an optimal solution is solved to status `OPTIMAL`, within the gap. -/
structure GapAnswers (g : GModel) (r : GResult) : Prop where
  answers : GResult.Answers g r
  status : (∃ ρ, g.Optimal ρ) → r.status = 2
  gap : 0 ≤ g.mipGap → GResult.WithinGap g r

theorem build_mipGap (J : CI) (ss : List ℕ) : (Deter.build J ss).g.mipGap = 1 / 10 ^ 4 := by
  have : ∀ (ss : List ℕ) (d : Deter), (Deter.add J d ss).g.mipGap = d.g.mipGap := by
    intro ss
    induction ss with
    | nil => intro d; rfl
    | cons s ss ih =>
      intro d
      rw [show Deter.add J d (s :: ss) = Deter.add J (Deter.add1 J d s) ss from rfl, ih]
      exact (addConstrs_fields _ _).2.2.2.1
  exact this ss _

/-- The cost within the gap: a point of that value, and no point exceeds it by more than the
default gap. -/
def NearOpt (I : Inst) (l : List ℕ) (v : ℚ) (x : Vec) : Prop :=
  (InX I x ∧ SatAll I l x ∧ obj I x = v)
    ∧ ∀ y, InX I y → SatAll I l y → obj I y ≤ (1 + 1 / 10 ^ 4) * v

theorem build_optimal {ss : List ℕ} (h : ∃ x, InX I x ∧ SatAll I ss x) :
    ∃ ρ, (Deter.build (instCI I) ss).g.Optimal ρ := by
  obtain ⟨v, y, hy1, hy2⟩ := detOpt_exists I ss h
  refine ⟨fun w => match w with | .x j => y j | _ => 0,
    (build_feas I ss _).2 ⟨hy1.1, hy1.2.1⟩, fun ρ'' h'' => ?_⟩
  rw [if_pos (build_max _ _), build_obj, build_obj]
  have h3 := (build_feas I ss ρ'').1 h''
  show _ ≤ obj I y
  rw [hy1.2.2]
  exact hy2 _ h3.1 h3.2

theorem subsetCost_near (hc : NonnegC I) {solve : GModel → GResult} {ss : List ℕ}
    (h : GapAnswers (Deter.build (instCI I) ss).g (solve (Deter.build (instCI I) ss).g))
    {v : ℚ} {x : Vec} (hr : subsetCost I solve ss = .ok (v, x)) : NearOpt I ss v x := by
  unfold subsetCost at hr
  rw [optimize, if_neg h.answers.notInterrupted] at hr
  simp only [bind, Except.bind] at hr
  cases hs : (solve (Deter.build (instCI I) ss).g).sol with
  | none => simp only [getObjVal, hs] at hr; cases hr
  | some ρ =>
    simp only [getObjVal, getX, getSol, hs, bind, Except.bind, pure, Except.pure] at hr
    cases hr
    obtain ⟨f1, f2⟩ := h.answers.valid.feas ρ hs
    rw [build_feas] at f1
    rw [build_obj] at f2
    refine ⟨⟨f1.1, f1.2, f2⟩, fun y hy1 hy2 => ?_⟩
    have hb := h.answers.valid.bound (build_bounded I ss) (fun w => match w with | .x j => y j | _ => 0)
      ((build_feas I ss _).2 ⟨hy1, hy2⟩)
    rw [if_pos (build_max _ _), build_obj] at hb
    have hg := h.gap (by rw [build_mipGap]; norm_num) (h.status (build_optimal ⟨_, f1⟩))
    have h0 : 0 ≤ (solve (Deter.build (instCI I) ss).g).objVal := f2 ▸ obj_nonneg hc f1.1
    rw [build_mipGap, abs_of_nonneg h0] at hg
    have := le_abs_self ((solve (Deter.build (instCI I) ss).g).objBnd
      - (solve (Deter.build (instCI I) ss).g).objVal)
    have hb' : obj I y ≤ (solve (Deter.build (instCI I) ss).g).objBnd := hb
    linarith

/-- Some satisfied scenario costs at most the quantile. -/
theorem quantile_scenario (argsort : Argsort) {costs : List ℚ} (hl : costs.length = I.N)
    (hp : ∀ s < I.N, 0 ≤ I.proba s) {v : ℚ}
    (hv : ahmedBound argsort costs I.proba I.eps = some v) {x : Vec} (hx : Chance I x) :
    ∃ s < I.N, Sat I s x ∧ costs.getD s 0 ≤ v := by
  obtain ⟨hperm, hsort⟩ := argsort.spec costs
  rw [hl] at hperm
  obtain ⟨pre, s, post, hl, rfl, hge⟩ := quantileLoop_some hv
  rw [hl] at hperm hsort
  have hlt : ∀ t ∈ pre ++ [s], t < I.N := fun t ht => by
    have : t ∈ pre ++ s :: post := by
      rcases List.mem_append.1 ht with h | h
      · simp [h]
      · simp [List.mem_singleton.1 h]
    exact List.mem_range.1 (hperm.mem_iff.1 this)
  by_contra hno
  push Not at hno
  have hno : ∀ t ∈ pre ++ [s], ¬ Sat I t x := fun t ht hs => by
    refine absurd (hno t (hlt t ht) hs) (not_lt.2 ?_)
    rcases List.mem_append.1 ht with h | h
    · exact (List.pairwise_append.1 hsort).2.2 t h s (by simp)
    · rw [List.mem_singleton.1 h]
  have hnd : (pre ++ [s]).Nodup := by
    have := hperm.nodup_iff.2 List.nodup_range
    have h2 : pre ++ s :: post = (pre ++ [s]) ++ post := by simp
    rw [h2] at this
    exact (List.nodup_append.1 this).1
  have hsub : (pre ++ [s]).toFinset ⊆ viol I x := by
    intro t ht
    rw [List.mem_toFinset] at ht
    exact Finset.mem_filter.2 ⟨Finset.mem_range.2 (hlt t ht), hno t ht⟩
  have h1 : ((pre ++ [s]).map I.proba).sum ≤ ∑ t ∈ viol I x, I.proba t := by
    rw [← List.sum_toFinset _ hnd]
    refine Finset.sum_le_sum_of_subset_of_nonneg hsub fun t ht _ => ?_
    exact hp t (Finset.mem_range.1 (Finset.mem_filter.1 ht).1)
  have h2 : ∑ t ∈ viol I x, I.proba t ≤ I.eps := hx
  have h3 : (0 : ℚ) < 1 / 10 ^ 7 := by norm_num
  linarith

/-- **C58 (what holds).**  The full claim, with factor 1, is false
(`C58_counterexample`).  With single-scenario and subset problems solved within the default gap,
the quantile bound and the first-iteration bound exceed every feasible objective up to the
factor `1 + 1e-4`. -/
theorem C58_gap_partial (I : Inst) (hE : Equi I) (hc : NonnegC I)
    (argsort : Argsort) (sub : ℕ → GModel → GResult) (hsub : ∀ k g, GapAnswers g (sub k g)) :
    (∀ costs v, allScenarioCosts I sub = .ok costs →
      ahmedBound argsort costs I.proba I.eps = some v →
      ∀ x, Feas I x → obj I x ≤ (1 + 1 / 10 ^ 4) * v)
    ∧ ∀ P costs sols R, P.length = kmax I + 1 → partitionCost I sub P = .ok (costs, sols) →
      firstIterationBound costs sols = .ok R →
      ∀ y, PartFeas I P y → obj I y ≤ (1 + 1 / 10 ^ 4) * R.vBnd := by
  constructor
  · intro costs v hcosts hv x hx
    unfold allScenarioCosts scenarioCosts at hcosts
    obtain ⟨hl, hk⟩ := mapM_inv _ _ _ hcosts
    rw [List.length_zipIdx, List.length_range] at hl
    have hp : ∀ s < I.N, 0 ≤ I.proba s := fun s hs => by rw [hE.2 s hs]; positivity
    obtain ⟨s, hs, hsat, hle⟩ := quantile_scenario argsort hl hp hv hx.2
    have hs2 : s < costs.length := by omega
    have h1 := hk s (by simpa using hs) hs2
    rw [List.getElem_zipIdx, List.getElem_range] at h1
    simp only at h1
    rw [List.getD_eq_getElem _ _ hs2] at hle
    cases hcs : subsetCost I (sub (0 + s)) [s] with
    | error e => rw [hcs] at h1; cases h1
    | ok r =>
      rw [hcs] at h1
      have he : r.1 = costs[s] := Except.ok.inj h1
      have := (subsetCost_near hc (hsub _ _) (v := r.1) (x := r.2) hcs).2 x hx.1
        (by intro t ht; rw [List.mem_singleton.1 ht]; exact hsat)
      rw [he] at this
      linarith
  · intro P costs sols R hsize hP hR y hy
    unfold partitionCost at hP
    cases hm : P.zipIdx.mapM fun p => subsetCost I (sub p.2) p.1 with
    | error e => rw [hm] at hP; cases hP
    | ok rs =>
      rw [hm] at hP; cases hP
      obtain ⟨hl, hk⟩ := mapM_inv _ _ _ hm
      rw [List.length_zipIdx] at hl
      obtain ⟨c, hcl, hmax, hR'⟩ := firstIterationBound_ok (costs := rs.map Prod.fst)
        (sols := rs.map Prod.snd) (by
          intro h0
          have := congrArg List.length h0
          simp at this
          subst this
          simp at hl
          omega) (by simp)
      rw [hR'] at hR
      cases hR
      have : ∃ p ∈ P, SatAll I p y := by
        by_contra hno
        push Not at hno
        have : nbViolParts I P y = P.length := by
          unfold nbViolParts
          rw [List.countP_eq_length]
          intro p hp
          simpa using hno p hp
        have := hy.2
        omega
      obtain ⟨p, hp, hs⟩ := this
      obtain ⟨i, hi, rfl⟩ := List.mem_iff_getElem.1 hp
      have hi' : i < rs.length := by omega
      have h1 := hk i (by simpa using hi) hi'
      rw [List.getElem_zipIdx] at h1
      have h2 := (subsetCost_near hc (hsub _ _) (v := rs[i].1) (x := rs[i].2) h1).2 y hy.1 hs
      have h3 := hmax rs[i].1 (List.mem_map.2 ⟨rs[i], List.getElem_mem _, rfl⟩)
      show obj I y ≤ (1 + 1 / 10 ^ 4) * (rs.map Prod.fst).getD c 0
      linarith

/-! ## Counterexamples and examples -/

/-- One scenario, two binary items that both fit, costs 10000 and 1. -/
def exGap : Inst :=
  { n := 2, N := 1, m := 1, A := fun _ _ _ => 1, b := fun _ _ => 5
    c := fun j => if j = 0 then 10000 else 1, proba := fun _ => 1, eps := 0, cont := false }

/-- A solver that stops at the first item in the problem of the only scenario: value 10000,
bound 10001. -/
noncomputable def gapSolver : GModel → GResult :=
  tableSolver [((Deter.build (instCI exGap) [0]).g,
    ⟨2, some fun v => if v = .x 0 then 1 else 0, 10000, 10001⟩)]

theorem gapSolver_answers (g : GModel) : GapAnswers g (gapSolver g) := by
  unfold gapSolver tableSolver
  split
  · next hg =>
    subst hg
    have hpl : (Deter.build (instCI exGap) [0]).g.plain = true := by decide +kernel
    have hb := (brute_exact hpl).answers.valid.bound
    have hbnd : (brute (Deter.build (instCI exGap) [0]).g).objBnd = 10001 := by decide +kernel
    rw [hbnd] at hb
    refine ⟨⟨⟨?_, hb, ?_, ?_⟩, ?_, ?_⟩, fun _ => rfl, fun _ _ => ?_⟩
    · rintro ρ h
      cases h
      constructor
      · decide +kernel
      · decide +kernel
    · intro h; cases h
    · intro _; rfl
    · simp
    · intro _ _; rfl
    · rw [build_mipGap]; norm_num
  · unfold tableSolver
    have h := exactSolver_exact g
    refine ⟨h.answers, fun ho => (h.optimum ho).1, fun h0 h2 => ?_⟩
    · rw [exactSolver_closed g h2, sub_self, abs_zero]
      exact mul_nonneg h0 (abs_nonneg _)

/-- **C58 (counterexample).**  A scenario problem answered within the default gap: the quantile
bound and the first-iteration bound are 10000, the big-M computed from the quantile is -4, but
the feasible point that takes both items has objective 10001 and needs a big-M of -3 in the row of the
scenario. -/
theorem C58_counterexample : ∃ (I : Inst) (sub : ℕ → GModel → GResult) (x : Vec),
    Equi I ∧ NonnegAb I ∧ NonnegC I ∧ (∀ k g, GapAnswers g (sub k g)) ∧ Feas I x
    ∧ (∃ costs v, allScenarioCosts I sub = .ok costs
        ∧ ahmedBound .default costs I.proba I.eps = some v ∧ v < obj I x
        ∧ ∃ Ms, runBelotti .default exactSolver (instCI I) I.N v = .ok Ms
          ∧ ¬ Covers (instCI I) Ms x)
    ∧ ∃ P costs sols R, IsPartition I.N P ∧ P.length = kmax I + 1
        ∧ partitionCost I sub P = .ok (costs, sols) ∧ firstIterationBound costs sols = .ok R
        ∧ R.vBnd < obj I x := by
  refine ⟨exGap, fun _ => gapSolver, fun _ => 1, ⟨by decide, fun s _ => by norm_num [exGap]⟩,
    by unfold NonnegAb; decide +kernel, by unfold NonnegC; decide +kernel,
    fun _ => gapSolver_answers, ⟨by unfold InX; decide +kernel, by unfold Chance; decide +kernel⟩,
    ⟨[10000], 10000, by decide +kernel, by decide +kernel, by decide +kernel, [[-4]],
      by decide +kernel, fun h => ?_⟩, [[0]], ?_⟩
  · have := h 0 (by decide) 0 (by decide)
    revert this
    decide +kernel
  · have h : (partitionCost exGap (fun _ => gapSolver) [[0]]).bind (fun p =>
        (firstIterationBound p.1 p.2).map fun R => R.vBnd) = .ok 10000 := by decide +kernel
    cases hp : partitionCost exGap (fun _ => gapSolver) [[0]] with
    | error e => rw [hp] at h; cases h
    | ok p =>
      rw [hp] at h
      simp only [Except.bind] at h
      cases hR : firstIterationBound p.1 p.2 with
      | error e => rw [hR] at h; cases h
      | ok R =>
        rw [hR] at h
        have h : R.vBnd = 10000 := Except.ok.inj h
        refine ⟨p.1, p.2, R, ⟨by decide, by decide⟩, by decide +kernel, rfl, hR, ?_⟩
        rw [h]
        decide +kernel

/-- **C57 (Belotti, counterexample).**  The same answer makes `MilpSolver.solve` certify 10000 as
the optimal value: the problem with the computed big-Ms excludes the feasible point of value
10001. -/
theorem C57_belotti_counterexample : ∃ (env : Env) (I : Inst) (r : MilpSt),
    Equi I ∧ 0 ≤ I.eps ∧ NonnegAb I ∧ NonnegC I
    ∧ (∀ k g, GapAnswers g (env.sub 0 k g)) ∧ (∀ g, GResult.Exact g (env.big 0 g))
    ∧ (∀ g, GResult.Exact g (env.cc 0 g))
    ∧ milpSolve env I 1800 (1 / 10 ^ 4) true "belotti" = .ok r
    ∧ r.vUB = r.vLB ∧ ∃ y, Feas I y ∧ r.vUB < obj I y := by
  obtain ⟨r, hr, h1, h2⟩ : ∃ r, milpSolve { exactEnv exNorm 1 with sub := fun _ _ => gapSolver } exGap
      1800 (1 / 10 ^ 4) true "belotti" = .ok r ∧ r.vUB = 10000 ∧ r.vLB = 10000 := by
    have : (milpSolve { exactEnv exNorm 1 with sub := fun _ _ => gapSolver } exGap
      1800 (1 / 10 ^ 4) true "belotti").map (fun r => (r.vUB, r.vLB)) = .ok (10000, 10000) := by
      decide +kernel
    cases hm : milpSolve { exactEnv exNorm 1 with sub := fun _ _ => gapSolver } exGap
      1800 (1 / 10 ^ 4) true "belotti" with
    | error e => rw [hm] at this; cases this
    | ok r =>
      rw [hm] at this
      have := Prod.mk.inj (Except.ok.inj this)
      exact ⟨r, rfl, this.1, this.2⟩
  refine ⟨{ exactEnv exNorm 1 with sub := fun _ _ => gapSolver }, exGap, r,
    ⟨by decide, fun s _ => by norm_num [exGap]⟩, by decide +kernel,
    by unfold NonnegAb; decide +kernel, by unfold NonnegC; decide +kernel,
    fun _ => gapSolver_answers, exactSolver_exact, exactSolver_exact, hr, by rw [h1, h2],
    fun _ => 1, ⟨by unfold InX; decide +kernel, by unfold Chance; decide +kernel⟩, ?_⟩
  rw [h1]
  decide +kernel

/-- Two scenarios without risk.  The first item has the value 10001 and fits in both scenarios, the second
has the value 10000 and fits only in the first, the third has the value 1. -/
def exLoss : Inst :=
  { n := 3, N := 2, m := 2
    A := fun s i j => if i = 0 then (if s = 1 ∧ j = 1 then 2 else 1) else if s = 0 ∧ j = 0 then 1 else 0
    b := fun _ _ => 1, c := fun j => if j = 0 then 10001 else if j = 1 then 10000 else 1
    proba := fun _ => 1 / 2, eps := 0, cont := false }

/-- A solver that stops at the second item in the problem of the first scenario: value 10000, bound
10001. -/
noncomputable def lossSolver : GModel → GResult :=
  tableSolver [((Deter.build (instCI exLoss) [0]).g,
    ⟨2, some fun v => if v = .x 1 then 1 else 0, 10000, 10001⟩)]

theorem lossSolver_answers (g : GModel) : GapAnswers g (lossSolver g) := by
  unfold lossSolver tableSolver
  split
  · next hg =>
    subst hg
    have hpl : (Deter.build (instCI exLoss) [0]).g.plain = true := by decide +kernel
    have hb := (brute_exact hpl).answers.valid.bound
    have hbnd : (brute (Deter.build (instCI exLoss) [0]).g).objBnd = 10001 := by decide +kernel
    rw [hbnd] at hb
    refine ⟨⟨⟨?_, hb, ?_, ?_⟩, ?_, ?_⟩, fun _ => rfl, fun _ _ => ?_⟩
    · rintro ρ h
      cases h
      constructor
      · decide +kernel
      · decide +kernel
    · intro h; cases h
    · intro _; rfl
    · simp
    · intro _ _; rfl
    · rw [build_mipGap]; norm_num
  · unfold tableSolver
    have h := exactSolver_exact g
    refine ⟨h.answers, fun ho => (h.optimum ho).1, fun h0 h2 => ?_⟩
    · rw [exactSolver_closed g h2, sub_self, abs_zero]
      exact mul_nonneg h0 (abs_nonneg _)

/-- **C57 (Belotti, loss).**  The loss is not bounded by the gap of the scenario problems: with one of them
answered within the default gap of 1e-4, `MilpSolver.solve` certifies 1 as the optimal value of a problem
whose optimum is 10001, though all other answers are exact. -/
theorem C57_belotti_loss_counterexample : ∃ (env : Env) (I : Inst) (r : MilpSt),
    Equi I ∧ 0 ≤ I.eps ∧ NonnegAb I ∧ NonnegC I
    ∧ (∀ k g, GapAnswers g (env.sub 0 k g)) ∧ (∀ g, GResult.Exact g (env.big 0 g))
    ∧ (∀ g, GResult.Exact g (env.cc 0 g))
    ∧ milpSolve env I 1800 (1 / 10 ^ 4) true "belotti" = .ok r
    ∧ r.vUB = 1 ∧ r.vLB = 1 ∧ ∃ y, Feas I y ∧ obj I y = 10001 := by
  obtain ⟨r, hr, h1, h2⟩ : ∃ r, milpSolve { exactEnv exNorm 1 with sub := fun _ _ => lossSolver } exLoss
      1800 (1 / 10 ^ 4) true "belotti" = .ok r ∧ r.vUB = 1 ∧ r.vLB = 1 := by
    have : (milpSolve { exactEnv exNorm 1 with sub := fun _ _ => lossSolver } exLoss
      1800 (1 / 10 ^ 4) true "belotti").map (fun r => (r.vUB, r.vLB)) = .ok (1, 1) := by
      decide +kernel
    cases hm : milpSolve { exactEnv exNorm 1 with sub := fun _ _ => lossSolver } exLoss
      1800 (1 / 10 ^ 4) true "belotti" with
    | error e => rw [hm] at this; cases this
    | ok r =>
      rw [hm] at this
      have := Prod.mk.inj (Except.ok.inj this)
      exact ⟨r, rfl, this.1, this.2⟩
  refine ⟨_, exLoss, r, ⟨by decide, fun s _ => by norm_num [exLoss]⟩, by decide +kernel,
    by unfold NonnegAb; decide +kernel, by unfold NonnegC; decide +kernel, fun _ => lossSolver_answers,
    exactSolver_exact, exactSolver_exact, hr, h1, h2, fun j => if j = 0 then 1 else 0,
    ⟨by unfold InX; decide +kernel, by unfold Chance; decide +kernel⟩, by decide +kernel⟩

/-- Four equiprobable scenarios, two binary items; both fit in all but the last scenario. -/
def exMilp : Inst := { exBigMBin with b := fun _ _ => 13 / 10 }

/-- Hypotheses of C57 and C58 with the exact solver; Song's quantile index is in range, and the
four methods return the same value. -/
example : Equi exMilp ∧ 0 ≤ exMilp.eps ∧ 0 < exMilp.m ∧ 0 < exMilp.n
    ∧ NonnegAb exMilp ∧ NonnegC exMilp ∧ ⌊exMilp.eps * exMilp.N⌋₊ + 1 < exMilp.N
    ∧ (∀ k g, GResult.Exact g ((exactEnv exNorm 1).sub 0 k g))
    ∧ Monotone (exactEnv exNorm 1).clock
    ∧ (exactEnv exNorm 1).clock 5 - (exactEnv exNorm 1).clock 0 ≤ 1800
    ∧ ∀ p ∈ [(false, ""), (true, "naive"), (true, "song"), (true, "belotti")],
      (milpSolve (exactEnv exNorm 1) exMilp 1800 (1 / 10 ^ 4) p.1 p.2).map
        (fun r => (r.vUB, r.vLB)) = .ok (3, 3) :=
  ⟨exBigM_equi, by decide +kernel, by decide, by decide, by unfold NonnegAb; decide +kernel,
    by unfold NonnegC; decide +kernel, by decide +kernel, fun _ _ => exactSolver_exact _,
    fun a b h => by
      show ((a : ℕ) : ℚ) * 1 ≤ ((b : ℕ) : ℚ) * 1
      simpa using h,
    by decide +kernel, by decide +kernel⟩

end Verif.Props
