import Verif.Lemmas.SubEnv
import Verif.Props.DefaultGap
import Verif.Props.Workflow

/-!
# C102: values on a coarse grid make the default MIP gap of the subset problems harmless
-/

namespace Verif.Props

open Spec Model Finset

variable {I : Inst} {env : Env} {cfg : Cfg} {rounds fuel : ℕ}

/-- The values of the items are natural multiples of the unit `u`, and their sum is at most 10000
units. -/
def GridValues (n : ℕ) (c : Vec) (u : ℚ) : Prop :=
  0 < u ∧ (∀ j < n, ∃ k : ℕ, c j = k * u) ∧ ∑ j ∈ range n, c j ≤ 10 ^ 4 * u

theorem GridValues.nonneg {u : ℚ} (h : GridValues I.n I.c u) : NonnegC I := fun j hj => by
  obtain ⟨k, hk⟩ := h.2.1 j hj
  rw [hk]
  exact mul_nonneg (by positivity) h.1.le

theorem obj_grid {u : ℚ} (h : GridValues I.n I.c u) (hb : I.cont = false) {x : Vec}
    (hx : InX I x) : ∃ k : ℕ, obj I x = k * u := by
  unfold obj dot
  refine Finset.sum_induction _ (fun q => ∃ k : ℕ, q = k * u) ?_ ⟨0, by simp⟩ fun j hj => ?_
  · rintro _ _ ⟨a, rfl⟩ ⟨b, rfl⟩
    exact ⟨a + b, by push_cast; ring⟩
  · obtain ⟨k, hk⟩ := h.2.1 j (Finset.mem_range.1 hj)
    have := hx j (Finset.mem_range.1 hj)
    rw [hb] at this
    rcases (by simpa using this : x j = 0 ∨ x j = 1) with h0 | h1
    · exact ⟨0, by simp [h0]⟩
    · exact ⟨k, by simp [h1, hk]⟩

theorem obj_le_total (hc : NonnegC I) {x : Vec} (hx : InX I x) :
    obj I x ≤ ∑ j ∈ range I.n, I.c j := by
  unfold obj dot
  refine Finset.sum_le_sum fun j hj => ?_
  have h1 : x j ≤ 1 := by
    have := hx j (Finset.mem_range.1 hj)
    split at this
    · exact this.2
    · rcases this with h | h <;> simp [h]
  have := hc j (Finset.mem_range.1 hj)
  nlinarith

/-- On the grid, an answer within the default gap is optimal. -/
theorem NearOpt.exact {u : ℚ} (h : GridValues I.n I.c u) (hb : I.cont = false) {l : List ℕ} {v : ℚ}
    {x : Vec} (hx : NearOpt I l v x) : DetOpt I l v x := by
  refine ⟨hx.1, fun y hy1 hy2 => ?_⟩
  have hle := hx.2 y hy1 hy2
  obtain ⟨a, ha⟩ := obj_grid h hb hx.1.1
  obtain ⟨b, hb'⟩ := obj_grid h hb hy1
  have htot := (obj_le_total h.nonneg hy1).trans h.2.2
  rw [hx.1.2.2] at ha
  rw [hb'] at htot hle ⊢
  rw [ha] at hle ⊢
  have hu := h.1
  by_contra hlt
  have hab : a < b := by
    by_contra hc
    exact hlt (mul_le_mul_of_nonneg_right (by exact_mod_cast not_lt.1 hc) hu.le)
  have h1 : (a : ℚ) + 1 ≤ b := by exact_mod_cast hab
  have h2 : (b : ℚ) ≤ 10 ^ 4 := le_of_mul_le_mul_right htot hu
  have h3 : (b : ℚ) ≤ (1 + 1 / 10 ^ 4) * a := by
    refine le_of_mul_le_mul_right ?_ hu
    rw [mul_assoc]
    exact hle
  linarith

/-- **C102 (subset problems).**  With binary variables and values on the grid, whatever answer
within its default gap of `1e-4` the solver gives to the problem of a subset, cost and solution that
the code reads from it are an optimal solution and its value. -/
theorem C102_subset_costs {u : ℚ} (h : GridValues I.n I.c u) (hb : I.cont = false)
    {solve : GModel → GResult} (hs : ∀ g, GapAnswers g (solve g)) {l : List ℕ} {v : ℚ} {x : Vec}
    (hr : subsetCost I solve l = .ok (v, x)) : DetOpt I l v x :=
  (subsetCost_near h.nonneg (hs _) hr).exact h hb

/-! ## An exact solver that the runs cannot tell from the given one -/

/-- The same solution with a closed gap. -/
def closeGap (r : GResult) : GResult :=
  { r with status := if r.sol.isSome then 2 else 3, objBnd := r.objVal }

open Classical in
/-- The answers to the subset problems with closed gaps; exact answers to all other models. -/
noncomputable def exactSub (f : ℕ → ℕ → GModel → GResult) (I : Inst) (t k : ℕ) (g : GModel) :
    GResult :=
  if ∃ l, g = (Deter.build (instCI I) l).g then closeGap (f t k g) else exactSolver g

theorem closeGap_exact {u : ℚ} (h : GridValues I.n I.c u) (hb : I.cont = false) {l : List ℕ}
    {r : GResult} (hr : GapAnswers (Deter.build (instCI I) l).g r) :
    GResult.Exact (Deter.build (instCI I) l).g (closeGap r) := by
  have hsol : (∃ ρ, (Deter.build (instCI I) l).g.Feas ρ) → r.sol.isSome :=
    hr.answers.solved (build_bounded I l)
  refine ⟨⟨⟨hr.answers.valid.feas, fun _ ρ hρ => ?_, fun h3 => ?_, fun h2 => ?_⟩, ?_,
    fun _ hf => hsol hf⟩, fun ho => ?_, fun hno => ?_⟩
  · rw [if_pos (build_max _ _), build_obj]
    obtain ⟨ρ0, h0⟩ := Option.isSome_iff_exists.1 (hsol ⟨ρ, hρ⟩)
    have hcost : subsetCost I (fun _ => r) l = .ok (r.objVal, fun j => ρ0 (.x j)) := by
      unfold subsetCost
      rw [optimize, if_neg hr.answers.notInterrupted]
      simp only [getObjVal, getX, getSol, h0, bind, Except.bind, pure, Except.pure]
    rw [build_feas] at hρ
    exact ((subsetCost_near h.nonneg (solve := fun _ => r) hr hcost).exact h hb).2 _ hρ.1 hρ.2
  · have : r.sol = none := by
      cases hs : r.sol with
      | none => rfl
      | some _ => simp [closeGap, hs] at h3
    exact ⟨this, fun ρ hρ => by simpa [this] using hsol ⟨ρ, hρ⟩⟩
  · cases hs : r.sol with
    | none => simp [closeGap, hs] at h2
    | some _ => simp [closeGap, hs]
  · simp only [closeGap]
    split <;> norm_num
  · obtain ⟨ρ, h1, -⟩ := ho
    simp [closeGap, hsol ⟨ρ, h1⟩]
  · have : ¬ r.sol.isSome := fun hs => by
      obtain ⟨ρ0, h0⟩ := Option.isSome_iff_exists.1 hs
      exact hno ρ0 (hr.answers.valid.feas ρ0 h0).1
    simp [closeGap, this]

theorem exactSub_exact {u : ℚ} (h : GridValues I.n I.c u) (hb : I.cont = false)
    {f : ℕ → ℕ → GModel → GResult} {t k : ℕ} (hf : ∀ g, GapAnswers g (f t k g)) (g : GModel) :
    GResult.Exact g (exactSub f I t k g) := by
  unfold exactSub
  split
  · rename_i hl
    obtain ⟨l, rfl⟩ := hl
    exact closeGap_exact h hb (hf _)
  · exact exactSolver_exact g

theorem exactSub_cost {f : ℕ → ℕ → GModel → GResult} {t k : ℕ}
    (hf : ∀ g, GapAnswers g (f t k g)) (l : List ℕ) :
    subsetCost I (exactSub f I t k) l = subsetCost I (f t k) l := by
  have h2 : (closeGap (f t k (Deter.build (instCI I) l).g)).status ≠ 11 := by
    simp only [closeGap]
    split <;> norm_num
  unfold subsetCost
  rw [show exactSub f I t k (Deter.build (instCI I) l).g
    = closeGap (f t k (Deter.build (instCI I) l).g) from if_pos ⟨l, rfl⟩, optimize, if_neg h2,
    optimize, if_neg (hf _).answers.notInterrupted]
  rfl

/-- On the grid, a solver that stops within the default gap on the subset problems gives the same
runs as one that meets the contract of exact answers. -/
theorem GapContract.exact {u : ℚ} (hC : GapContract env I)
    (hbig : ∀ t g, GResult.Answers g (env.big t g)) (h : GridValues I.n I.c u)
    (hb : I.cont = false) :
    Contract (env.withSub (exactSub env.sub I)) I
      ∧ run (env.withSub (exactSub env.sub I)) cfg I rounds fuel = run env cfg I rounds fuel := by
  have hcost : ∀ t k l, subsetCost I (exactSub env.sub I t k) l = subsetCost I (env.sub t k) l :=
    fun t k l => exactSub_cost (hC.sub t k) l
  refine ⟨⟨hC.equi, hC.eps, hC.tolOk, hC.ab, hC.c, hC.m, hC.n,
    fun t k g => exactSub_exact h hb (hC.sub t k) g, fun t k l v x hr => ?_, hC.cc, hC.lb, hC.acc,
    hbig⟩, run_withSub hcost cfg rounds fuel⟩
  exact hC.sharp t k l v x ((hcost t k l).symm.trans hr)

/-- **C102 (adaptive algorithm).**  With binary variables and values on the grid, subset problems
answered within the default gap of `1e-4` give all certificates of exact answers, with every choice
of big-Ms, in every run, however it ends: after every assignment to a bound `vUB` is at least the
objective of every feasible point and `vLB`, once set, is the objective of a feasible point; after a
stop on the gap `xLB` is feasible and no feasible point exceeds it by more than the factor
`1 + gap`; after a stop on feasibility, with partitioned problems solved to optimality, `xUB` is
optimal and `vUB = vLB` its objective. -/
theorem C102_adaptive {u : ℚ} (hC : GapContract env I)
    (hbig : ∀ t g, GResult.Answers g (env.big t g)) (h : GridValues I.n I.c u)
    (hb : I.cont = false) (r : Except PyErr (Bool × Gap)) (s : St)
    (hr : run env cfg I rounds fuel = .ok (r, s)) :
    (∀ p ∈ s.trace, (∀ y, Feas I y → (obj I y : WithTop ℚ) ≤ p.1)
      ∧ ∀ v : ℚ, p.2 = v → ∃ x, Feas I x ∧ obj I x = v)
    ∧ (∀ g, r = .ok (false, g) → cfg.gap < 1 → g.le cfg.gap = true →
        ∃ x, s.xLB = some x ∧ Feas I x ∧ s.vLB = (obj I x : WithBot ℚ) ∧ 0 < obj I x
          ∧ ∀ y, Feas I y → obj I y ≤ (1 + cfg.gap) * obj I x)
    ∧ (∀ g, r = .ok (true, g) → Tight env →
        ∃ x, s.xUB = some x ∧ s.xLB = some x ∧ s.vUB = (obj I x : WithTop ℚ)
          ∧ s.vLB = (obj I x : WithBot ℚ) ∧ (∀ y, Feas I y → obj I y ≤ obj I x) ∧ InX I x
          ∧ ((violBy I (1 / 10 ^ 6) x).card : ℚ) ≤ I.eps * I.N
          ∧ (Sharp I x → Feas I x)) := by
  obtain ⟨hC', he⟩ := GapContract.exact (cfg := cfg) (rounds := rounds) (fuel := fuel) hC hbig h hb
  rw [← he] at hr
  refine ⟨(C50_bounds_bracket_partial hC' r s hr).1, fun g hg hgap hle => ?_, fun g hg ht => ?_⟩
  · subst hg
    exact C52_gap_stop_certifies hC' hgap g s hr hle
  · subst hg
    exact C51_feasible_stop_optimal hC' ht g s hr

/-- **C102 (big-Ms of Belotti et al. in `MilpSolver`).**  With binary variables and values on the
grid, single-scenario problems answered within the default gap of `1e-4` are enough for everything
that `C57_belotti_partial` says about exact ones. -/
theorem C102_belotti {u : ℚ} (env : Env) (I : Inst) (hE : Equi I) (heps : 0 ≤ I.eps)
    (hI : NonnegAb I) (h : GridValues I.n I.c u) (hb : I.cont = false)
    (hsub : ∀ k g, GapAnswers g (env.sub 0 k g)) (hbig : ∀ g, GResult.Answers g (env.big 0 g))
    (timeLimit gap : ℚ) :
    ((∀ g, GResult.Valid g (env.cc 0 g)) →
      ∀ r, milpSolve env I timeLimit gap true "belotti" = .ok r →
        MilpOk I r ∧ (r.vUB = r.vLB → IsOptimal I r.xLB)
        ∧ ((∀ g, g.mipGap = gap → (env.cc 0 g).sol.isSome →
            (env.cc 0 g).status = 2 ∧ GResult.WithinGap g (env.cc 0 g)) →
            r.vUB ≤ (1 + gap) * r.vLB))
    ∧ ((∀ g, GResult.Answers g (env.cc 0 g)) →
        Monotone env.clock → env.clock 5 - env.clock 0 ≤ timeLimit → I.eps + 1 / 10 ^ 7 ≤ 1 →
        ∃ r, milpSolve env I timeLimit gap true "belotti" = .ok r) := by
  have he : milpSolve (env.withSub (exactSub (fun _ => env.sub 0) I)) I timeLimit gap true "belotti"
      = milpSolve env I timeLimit gap true "belotti" := by
    refine (milpSolve_withSub (env := env.withSub fun _ => env.sub 0)
      (f := exactSub (fun _ => env.sub 0) I) (fun t k l => ?_) timeLimit gap true "belotti").trans rfl
    exact exactSub_cost (f := fun _ => env.sub 0) (t := t) (hsub k) l
  have := C57_belotti_partial (env.withSub (exactSub (fun _ => env.sub 0) I)) I hE heps hI h.nonneg
    (fun k g => exactSub_exact h hb (f := fun _ => env.sub 0) (t := 0) (hsub k) g) hbig timeLimit gap
  rw [he] at this
  exact this

/-! ## Generated instances and the files of the repository -/

/-- **C102 (generated instances).**  C72 with subset problems answered within the default gap
only: on every instance generated from an OR-library file with values of one decimal digit on the
grid, read with binary variables, the adaptive solver stops with certified solutions, if
`epsilon * N` is a whole number and the announced sizes are positive. -/
theorem C102_generated {file : List (List ℚ)} {n m : ℕ} {c b : Vec}
    (h : OrLib file n m c b) (hn : 0 < n) (hm : 0 < m) (hb : ∀ i < m, 0 ≤ b i) {u : ℚ}
    (hc : GridValues n c u) (hc' : ∀ j < n, ∃ k : ℕ, c j = k / 10)
    {N K : ℕ} (hN : 0 < N) (hN' : N < 10 ^ 7) {d : Draws}
    {files : List (Txt × List (List ℚ))} (hf : generate file N K d = .ok files)
    {eps : ℚ} {q : ℕ} (hq : eps * N = q) {f : Txt × List (List ℚ)} (hfm : f ∈ files)
    {env : Env} {cfg : Cfg} {rounds fuel : ℕ}
    (hsub : ∀ t k g, GapAnswers g (env.sub t k g))
    (hcc : ∀ t g, GResult.Valid g (env.cc t g)) (hlb : ∀ t g, GResult.Valid g (env.lb t g))
    (hacc : ∀ t k g, GResult.Answers g (env.acc t k g))
    (hbig : ∀ t g, GResult.Answers g (env.big t g)) (hgap : cfg.gap < 1) :
    ∃ I, parse f.2 false eps = .ok I ∧ I.n = n ∧ I.m = m ∧ I.N = N
      ∧ ∀ (r : Except PyErr (Bool × Gap)) (s : St), run env cfg I rounds fuel = .ok (r, s) →
        (∀ p ∈ s.trace, (∀ y, Feas I y → (obj I y : WithTop ℚ) ≤ p.1)
          ∧ ∀ v : ℚ, p.2 = v → ∃ x, Feas I x ∧ obj I x = v)
        ∧ (∀ g, r = .ok (false, g) → g.le cfg.gap = true → ∃ x, s.xLB = some x ∧ Feas I x
            ∧ ∀ y, Feas I y → obj I y ≤ (1 + cfg.gap) * obj I x)
        ∧ (∀ g, r = .ok (true, g) → Tight env → ∃ x, s.xUB = some x ∧ s.xLB = some x ∧ Feas I x
            ∧ (∀ y, Feas I y → obj I y ≤ obj I x)
            ∧ s.vUB = (obj I x : WithTop ℚ) ∧ s.vLB = (obj I x : WithBot ℚ)) := by
  have hcn : ∀ j < n, 0 ≤ c j := fun j hj => by
    obtain ⟨k, hk⟩ := hc' j hj
    rw [hk]
    positivity
  obtain ⟨I, hI, e1, e2, e3, e7⟩ : ∃ I, parse f.2 false eps = .ok I ∧ I.n = n ∧ I.m = m ∧ I.N = N
      ∧ ∀ j < n, I.c j = c j := by
    have hg := generate_ok h N K d
    rw [hf] at hg
    cases hg
    obtain ⟨k, -, rfl⟩ := List.mem_map.1 hfm
    obtain ⟨I, hI, e1, e2, e3, -, -, -, e7, -⟩ := C04_parse_generated n m N hN c
      (fun s i j => genEntry (d.normal k i j s) (d.fails k j s)) b false eps
    refine ⟨I, hI, e1, e2, e3, fun j hj => ?_⟩
    obtain ⟨k', hk'⟩ := hc' j hj
    rw [e7 j hj, hk']
    exact (C05_round1 0).2.2.1 (k' : ℤ)
  have hG : GridValues I.n I.c u := by
    rw [e1]
    refine ⟨hc.1, fun j hj => by rw [e7 j hj]; exact hc.2.1 j hj, ?_⟩
    rw [Finset.sum_congr rfl fun j hj => e7 j (Finset.mem_range.1 hj)]
    exact hc.2.2
  have hbin : I.cont = false := (parse_ok hI).1
  have hcost : ∀ t k l, subsetCost I (exactSub env.sub I t k) l = subsetCost I (env.sub t k) l :=
    fun t k l => exactSub_cost (hsub t k) l
  obtain ⟨I', hI', -, -, -, hrun⟩ := C72_generated_certificates h hn hm hb hcn hN hN' hf hq hfm
    (env := env.withSub (exactSub env.sub I)) (cfg := cfg) (rounds := rounds) (fuel := fuel)
    (fun t k g => exactSub_exact hG hbin (hsub t k) g) hcc hlb hacc hbig hgap
  rw [hI] at hI'
  cases hI'
  refine ⟨I, hI, e1, e2, e3, fun r s hr => hrun r s ?_⟩
  rw [← hr]
  exact run_withSub hcost cfg rounds fuel

/-- A combination of the values with whole coefficients that is positive is at least the unit. -/
theorem GridValues.le_comb {n : ℕ} {c : Vec} {u : ℚ} (h : GridValues n c u) {i j : ℕ} (hi : i < n)
    (hj : j < n) (a b : ℤ) (hpos : 0 < a * c i - b * c j) : u ≤ a * c i - b * c j := by
  obtain ⟨k, hk⟩ := h.2.1 i hi
  obtain ⟨l, hl⟩ := h.2.1 j hj
  have he : a * c i - b * c j = ((a * k - b * l : ℤ) : ℚ) * u := by
    rw [hk, hl]
    push_cast
    ring
  rw [he] at hpos ⊢
  have h1 : (0 : ℚ) < ((a * k - b * l : ℤ) : ℚ) := pos_of_mul_pos_left hpos h.1.le
  have h2 : (1 : ℚ) ≤ ((a * k - b * l : ℤ) : ℚ) := by exact_mod_cast h1
  nlinarith [h.1]

/-- The units of the values of the OR-library files 1, 3, 4, 5 and 8 of the repository. -/
def orUnit (a : ℕ) : ℚ := [100, 1, 5, 5, 5, 1, 1, 1].getD a 1

/-- **C102 (files of the repository).**  The values of the OR-library files 1, 3, 4, 5 and 8 are on
the grid, among them those of the instances `ccmknap-20-10` and `ccmknap-40-30` of
run_all_experiments.sh; those of the files 2, 6 and 7 are not, with no unit. -/
theorem C102_orlib : (∀ a ∈ [0, 2, 3, 4, 7], GridValues (orN a) (orC a) (orUnit a)
      ∧ ∀ j < orN a, ∃ k : ℕ, orC a j = k / 10)
    ∧ ∀ a ∈ [1, 5, 6], ∀ u, ¬ GridValues (orN a) (orC a) u := by
  constructor
  · have hcheck : ∀ a ∈ [0, 2, 3, 4, 7], 0 < orUnit a
        ∧ (∀ j < orN a, (orC a j / orUnit a).den = 1 ∧ 0 ≤ (orC a j / orUnit a).num)
        ∧ (∀ j < orN a, (orC a j * 10).den = 1 ∧ 0 ≤ (orC a j * 10).num)
        ∧ ∑ j ∈ range (orN a), orC a j ≤ 10 ^ 4 * orUnit a := by decide +kernel
    have hnat : ∀ q : ℚ, q.den = 1 ∧ 0 ≤ q.num → q = (q.num.toNat : ℚ) := fun q hq => by
      have h1 : ((q.num.toNat : ℤ) : ℚ) = (q.num : ℚ) := by rw [Int.toNat_of_nonneg hq.2]
      have h2 : q = (q.num : ℚ) := by
        conv_lhs => rw [← Rat.num_div_den q, hq.1]
        simp
      exact h2.trans h1.symm
    intro a ha
    obtain ⟨h1, h2, h3, h4⟩ := hcheck a ha
    exact ⟨⟨h1, fun j hj => ⟨_, (div_eq_iff h1.ne').1 (hnat _ (h2 j hj))⟩, h4⟩,
      fun j hj => ⟨_, (eq_div_iff (by norm_num)).2 (hnat _ (h3 j hj))⟩⟩
  · intro a ha u hu
    simp only [List.mem_cons, List.not_mem_nil, or_false] at ha
    rcases ha with rfl | rfl | rfl
    · have h1 := hu.le_comb (i := 0) (j := 2) (by decide) (by decide) 3 1 (by decide +kernel)
      have h2 : (12589 : ℚ) ≤ ∑ j ∈ range (orN 1), orC 1 j := by decide +kernel
      have h3 : ((3 : ℤ) : ℚ) * orC 1 0 - ((1 : ℤ) : ℚ) * orC 1 2 = 3 / 10 := by decide +kernel
      rw [h3] at h1
      linarith [hu.2.2]
    · have h1 := hu.le_comb (i := 18) (j := 27) (by decide) (by decide) 1 1 (by decide +kernel)
      have h2 : (14723 : ℚ) ≤ ∑ j ∈ range (orN 5), orC 5 j := by decide +kernel
      have h3 : ((1 : ℤ) : ℚ) * orC 5 18 - ((1 : ℤ) : ℚ) * orC 5 27 = 1 := by decide +kernel
      rw [h3] at h1
      linarith [hu.2.2]
    · have h1 := hu.le_comb (i := 5) (j := 41) (by decide) (by decide) 1 1 (by decide +kernel)
      have h2 : (22497 : ℚ) ≤ ∑ j ∈ range (orN 6), orC 6 j := by decide +kernel
      have h3 : ((1 : ℤ) : ℚ) * orC 6 5 - ((1 : ℤ) : ℚ) * orC 6 41 = 1 := by decide +kernel
      rw [h3] at h1
      linarith [hu.2.2]

/-! ## Sharpness and example -/

/-- The bound of 10000 units is sharp: with two items of values 10000 and 1, a total of 10001
units, an answer within the default gap need not be optimal. -/
theorem C102_sharp : ∃ (I : Inst) (solve : GModel → GResult) (v : ℚ) (x : Vec),
    I.cont = false ∧ (∀ j < I.n, ∃ k : ℕ, I.c j = k * 1) ∧ ∑ j ∈ range I.n, I.c j = 10 ^ 4 * 1 + 1
    ∧ (∀ g, GapAnswers g (solve g)) ∧ subsetCost I solve [0] = .ok (v, x) ∧ ¬ DetOpt I [0] v x := by
  refine ⟨exGap, gapSolver, 10000, fun j => if j = 0 then 1 else 0, rfl, fun j _ => ?_,
    by decide +kernel, gapSolver_answers, ?_, fun h => ?_⟩
  · by_cases hj : j = 0
    · exact ⟨10000, by simp [exGap, hj]⟩
    · exact ⟨1, by simp [exGap, hj]⟩
  · have : gapSolver (Deter.build (instCI exGap) [0]).g
        = ⟨2, some fun v => if v = .x 0 then 1 else 0, 10000, 10001⟩ := by
      unfold gapSolver tableSolver
      rw [if_pos rfl]
    unfold subsetCost
    rw [this]
    simp [optimize, getObjVal, getX, getSol, bind, Except.bind, pure, Except.pure]
  · have := h.2 (fun _ => 1) (by unfold InX; decide +kernel) (by unfold SatAll Sat; decide +kernel)
    have h1 : obj exGap (fun _ => 1) = 10001 := by decide +kernel
    rw [h1] at this
    norm_num at this

/-- The instance `exCut` with values 5000, 4999 and 1. -/
def exCoarse : Inst := { exCut with c := fun j => if j = 0 then 5000 else if j = 1 then 4999 else 1 }

/-- A solver that stops with an open gap in the problem of the even scenarios: value 5000, bound
5000.5. -/
noncomputable def coarseSolver : GModel → GResult :=
  tableSolver [((Deter.build (instCI exCoarse) [0, 2]).g,
    ⟨2, some fun v => if v = .x 0 then 1 else 0, 5000, 10001 / 2⟩)]

theorem coarseSolver_answers (g : GModel) : GapAnswers g (coarseSolver g) := by
  unfold coarseSolver tableSolver
  split
  · next hg =>
    subst hg
    have hpl : (Deter.build (instCI exCoarse) [0, 2]).g.plain = true := by decide +kernel
    have hb := (brute_exact hpl).answers.valid.bound
    have hbnd : (brute (Deter.build (instCI exCoarse) [0, 2]).g).objBnd = 5000 := by decide +kernel
    rw [hbnd] at hb
    refine ⟨⟨⟨?_, fun h ρ hρ => ?_, ?_, ?_⟩, ?_, ?_⟩, fun _ => rfl, fun _ _ => ?_⟩
    · rintro ρ h
      cases h
      exact ⟨by decide +kernel, by decide +kernel⟩
    · have := hb h ρ hρ
      rw [if_pos (build_max _ _)] at this ⊢
      exact this.trans (by norm_num)
    · intro h; cases h
    · intro _; rfl
    · simp
    · intro _ _; rfl
    · rw [build_mipGap]; norm_num
  · unfold tableSolver
    have h := exactSolver_exact g
    refine ⟨h.answers, fun ho => (h.optimum ho).1, fun h0 h2 => ?_⟩
    rw [exactSolver_closed g h2, sub_self, abs_zero]
    exact mul_nonneg h0 (abs_nonneg _)

/-- All other problems are solved exactly. -/
noncomputable def coarseEnv : Env := { exactEnv exNorm 1 with sub := fun _ _ => coarseSolver }

theorem coarse_contract : GapContract coarseEnv exCoarse := by
  have h := cut_contract
  have hn : NonnegC exCoarse := by unfold NonnegC; decide +kernel
  refine gapContract_of_grid h.equi h.eps h.tolOk ⟨h.ab, fun s _ i _ => ⟨⟨30, by
      norm_num [exCoarse, exCut, exFactor]⟩, fun j _ => ?_⟩⟩ hn h.m h.n rfl
    (fun _ _ g => coarseSolver_answers g) (fun _ g => (exactSolver_exact g).answers.valid)
    (fun _ g => (exactSolver_exact g).answers.valid) (fun _ _ g => (exactSolver_exact g).answers)
  by_cases h0 : s = 0
  · by_cases h1 : j = 1
    · exact ⟨30, by simp only [exCoarse, exCut, if_pos h0, if_pos h1]; norm_num⟩
    · exact ⟨10, by simp only [exCoarse, exCut, if_pos h0, if_neg h1]; norm_num⟩
  · by_cases h : j = 0 ∧ s % 2 = 1 ∨ j = 1 ∧ s = 1
    · exact ⟨40, by simp only [exCoarse, exCut, if_neg h0, if_pos h]; norm_num⟩
    · exact ⟨20, by simp only [exCoarse, exCut, if_neg h0, if_neg h]; norm_num⟩

/-- The hypotheses of C102 are met by a run with Belotti's big-Ms and an answer with an open gap,
which stops with the optimum 4999; and by the OR-library file 4 of the repository. -/
example : GapContract coarseEnv exCoarse ∧ (∀ t g, GResult.Answers g (coarseEnv.big t g))
    ∧ GridValues exCoarse.n exCoarse.c 1 ∧ exCoarse.cont = false
    ∧ ¬ GResult.Exact (Deter.build (instCI exCoarse) [0, 2]).g
        (coarseEnv.sub 0 0 (Deter.build (instCI exCoarse) [0, 2]).g)
    ∧ OrLib orlib4 20 10 (orC 3) (orB 3) ∧ GridValues 20 (orC 3) 5 := by
  refine ⟨coarse_contract, fun _ g => (exactSolver_exact g).answers, ⟨by norm_num, fun j _ => ?_,
    by decide +kernel⟩, rfl, fun h => ?_, orlib_library.file 3 _ rfl, (C102_orlib.1 3 (by decide)).1⟩
  · by_cases h0 : j = 0
    · exact ⟨5000, by simp [exCoarse, h0]⟩
    · by_cases h1 : j = 1
      · exact ⟨4999, by simp [exCoarse, h1]⟩
      · exact ⟨1, by simp [exCoarse, h0, h1]⟩
  · have := (h.optimum (build_optimal ⟨fun _ => 0, by unfold InX; decide +kernel,
      by unfold SatAll Sat; decide +kernel⟩)).2
    simp only [coarseEnv, coarseSolver, tableSolver, if_true] at this
    norm_num at this

example : (run coarseEnv cutCfg exCoarse 10 10).toOption.bind (fun r =>
      r.1.toOption.map fun q => (q.1, r.2.vLB, r.2.vUB))
    = some (true, ((4999 : ℚ) : WithBot ℚ), ((4999 : ℚ) : WithTop ℚ)) := by
  decide +kernel

end Verif.Props
