import Verif.Lemmas.Time
import Verif.Lemmas.Brute

/-!
# C20, C21, C56, C66: gap, lower-bound step, clock, monotone bounds
-/

open Finset

namespace Verif.Props
open Spec Model

/-! ## A concrete run -/

/-- Four scenarios, at most one item; item 0 fits in the even scenarios, item 1 in the odd ones,
item 2 everywhere. -/
def exPairs : Inst :=
  { n := 3, N := 4, m := 1
    A := fun s _ j => if j = 2 ∨ ((s % 2 = 0) ↔ (j = 0)) then 1 else 2
    b := fun _ _ => 1, c := fun j => if j = 2 then 1 else 2
    proba := fun _ => 1 / 4, eps := 1 / 4, cont := false }

/-- Random initial partition and random refiner with merging; indicator constraints. -/
def exCfg : Cfg :=
  { splitMethod := "random", initType := "random", projection := "counter", useAccObj := false
    useBigM := false, bigMMethod := "", useMerger := true, timeLimit := 100, gap := 1 / 100 }

/-- What a test of a run looks at. -/
structure Outcome where
  error : Option PyErr
  result : Option (Bool × Gap)
  partition : List (List ℕ)
  iteration : ℕ
  reads : ℕ
  steps : List ℚ
  trace : List (WithTop ℚ × WithBot ℚ)
  deriving DecidableEq

def outcome : PyM (Except PyErr (Bool × Gap) × St) → Option Outcome
  | .error _ => none
  | .ok (r, s) => some
      { error := (match r with | .ok _ => none | .error e => some e), result := r.toOption
        partition := s.partition, iteration := s.iteration, reads := s.reads, steps := s.steps
        trace := s.trace }

/-- The run of the example: it stops in its third iteration because the solution is feasible. -/
theorem exPairs_outcome : outcome (run (bruteEnv exNorm 1) exCfg exPairs 10 10) = some
    { error := none, result := some (true, .fin 1), partition := [[0, 3], [1, 2]], iteration := 3
      reads := 12, steps := [99, 97, 94, 92, 89]
      trace := [(⊤, ⊥), ((2 : ℚ), ⊥), ((2 : ℚ), (1 : ℚ)), ((2 : ℚ), (1 : ℚ)),
        ((1 : ℚ), (1 : ℚ))] } := by
  decide +kernel

/-! ## Monotone bounds -/

/-- The history of the bounds: `vLB` never decreases, `vUB` grows by at most `1e-8` per
update. -/
def BoundStep (p q : WithTop ℚ × WithBot ℚ) : Prop :=
  p.2 ≤ q.2 ∧ q.1 ≤ p.1 + ((1 / 10 ^ 8 : ℚ) : WithTop ℚ)

def MonoTrace (w : View) : Prop :=
  w.trace.IsChain BoundStep ∧ w.trace.getLast? = some (w.vUB, w.vLB)

theorem closed_mono (env : Env) (cfg : Cfg) : Closed env cfg MonoTrace := by
  refine ⟨⟨⟨fun w v h hv => ?_, fun w v h hv => ?_⟩, fun _ _ _ _ h _ => h⟩, ⟨fun w h => h, fun w h => h⟩,
    fun w h _ => h, fun w h => h⟩
  · refine ⟨List.isChain_append.2 ⟨h.1, by simp, ?_⟩, by simp⟩
    intro p hp q hq
    rw [h.2] at hp
    cases hp
    simp only [List.head?_cons, Option.mem_def, Option.some.injEq] at hq
    subst hq
    refine ⟨hv.le, ?_⟩
    exact le_add_of_nonneg_right (WithTop.coe_nonneg.2 (by norm_num))
  · refine ⟨List.isChain_append.2 ⟨h.1, by simp, ?_⟩, by simp⟩
    intro p hp q hq
    rw [h.2] at hp
    cases hp
    simp only [List.head?_cons, Option.mem_def, Option.some.injEq] at hq
    subst hq
    refine ⟨le_rfl, ?_⟩
    unfold leTol at hv
    simpa using hv

theorem construct_start {env : Env} {cfg : Cfg} {I : Inst} {s : St}
    (h : construct env cfg I = .ok s) :
    s.trace = [(s.vUB, s.vLB)] ∧ s.reads = 0 ∧ s.steps = [] ∧ s.vLB = ⊥ ∧ s.xLB = none
      ∧ s.lb = LBState.init I ∧ s.feas = none ∧ s.deleted = [] ∧ s.memory = []
      ∧ s.zUB = none ∧ s.xUB = none ∧ s.didMerge = false ∧ s.info = [] := by
  unfold construct at h
  simp only [bind, Except.bind] at h
  repeat' split at h
  all_goals first
    | (cases h; done)
    | (cases h; exact ⟨rfl, rfl, rfl, rfl, rfl, rfl, rfl, rfl, rfl, rfl, rfl, rfl, rfl⟩)

theorem run_inv {env : Env} {cfg : Cfg} {I : Inst} {rounds fuel : ℕ}
    {r : Except PyErr (Bool × Gap)} {s : St} (h : run env cfg I rounds fuel = .ok (r, s)) :
    ∃ s0, construct env cfg I = .ok s0 ∧ solve env cfg I rounds fuel s0 = (r, s) := by
  unfold run at h
  cases hc : construct env cfg I with
  | error e => rw [hc] at h; cases h
  | ok s0 => rw [hc] at h; exact ⟨s0, rfl, Except.ok.inj h⟩

/-- The end of a run, for properties of bounds and clock. -/
theorem run_view {env : Env} {cfg : Cfg} {I : Inst} {J : View → Prop} (hJ : Closed env cfg J)
    (hit : ∀ w, J w → J { w with iteration := 1 })
    (h0 : ∀ s0, construct env cfg I = .ok s0 → J (view s0)) {rounds fuel : ℕ}
    {r : Except PyErr (Bool × Gap)} {s : St} (h : run env cfg I rounds fuel = .ok (r, s)) :
    ∃ w, J w ∧ (view s = w ∨ (∃ g, r = .ok (true, g)) ∧ sameButLB w (view s)) := by
  obtain ⟨s0, hc, hs⟩ := run_inv h
  have := wp_solve (I := I) hJ hit rounds fuel s0 (h0 s0 hc)
  unfold wp at this
  rw [hs] at this
  cases r with
  | error e => exact ⟨_, this, .inl rfl⟩
  | ok r =>
    obtain ⟨w, h1, h2⟩ := this
    refine ⟨w, h1, h2.imp_right fun h => ⟨⟨r.2, ?_⟩, h.2⟩⟩
    rw [← h.1]

/-- **C66.** In every run, whatever the answers of the solver and however it ends, the sequence
of the bounds after every assignment (`trace`) starts with the initial bounds, never lowers `vLB`,
never raises `vUB` by more than `1e-8` in one step, and ends with the current bounds, unless the
final report of a feasible stop has copied `vUB` to `vLB`. -/
theorem C66_bounds_monotone (env : Env) (cfg : Cfg) (I : Inst) (rounds fuel : ℕ)
    (r : Except PyErr (Bool × Gap)) (s : St) (h : run env cfg I rounds fuel = .ok (r, s)) :
    s.trace.IsChain (fun p q => p.2 ≤ q.2 ∧ q.1 ≤ p.1 + ((1 / 10 ^ 8 : ℚ) : WithTop ℚ))
    ∧ ∃ l, s.trace.getLast? = some (s.vUB, l) ∧ (l = s.vLB ∨ ∃ g, r = .ok (true, g)) := by
  obtain ⟨w, h1, h2⟩ := run_view (closed_mono env cfg) (fun _ h => h) (fun s0 hc => by
    have := (construct_start hc).1
    refine ⟨?_, ?_⟩
    · show s0.trace.IsChain BoundStep
      rw [this]; simp
    · show s0.trace.getLast? = some (s0.vUB, s0.vLB)
      rw [this]; rfl) h
  rcases h2 with h2 | ⟨hg, l, h2⟩
  · subst h2
    exact ⟨h1.1, _, h1.2, .inl rfl⟩
  · have e1 : s.trace = w.trace := by
      have := congrArg View.trace h2; exact this
    have e2 : s.vUB = w.vUB := by
      have := congrArg View.vUB h2; exact this
    rw [e1, e2]
    exact ⟨h1.1, _, h1.2, .inr hg⟩

/-- All values of `vLB` in a run are below each other in order: the first and last one. -/
theorem chain_le {t : List (WithTop ℚ × WithBot ℚ)} (h : t.IsChain BoundStep) {i j : ℕ}
    (hij : i ≤ j) (hj : j < t.length) : t[i].2 ≤ t[j].2 := by
  induction hij with
  | refl => exact le_rfl
  | step hij ih =>
    refine (ih (by omega)).trans ?_
    exact (List.isChain_iff_getElem.1 h _ hj).1

example : ∃ r s, run (bruteEnv exNorm 1) exCfg exPairs 10 10 = .ok (r, s) ∧ s.trace.length = 5 := by
  have h := exPairs_outcome
  cases hr : run (bruteEnv exNorm 1) exCfg exPairs 10 10 with
  | error e => rw [hr] at h; cases h
  | ok p =>
    rw [hr] at h
    refine ⟨p.1, p.2, rfl, ?_⟩
    have := congrArg (fun o => o.map fun o : Outcome => o.trace.length) h
    simpa [outcome] using this

/-! ## The clock -/

/-- **C56.** The remaining time is never negative; with a clock that does not go back it never
grows and once it is zero it stays zero. -/
theorem C56_remaining (clock : ℕ → ℚ) (limit : ℚ) :
    (∀ k, 0 ≤ remaining clock limit k)
    ∧ (∀ k, limit < clock k - clock 0 → remaining clock limit k = 0)
    ∧ (Monotone clock → ∀ i j, i ≤ j → remaining clock limit j ≤ remaining clock limit i
        ∧ (remaining clock limit i = 0 → remaining clock limit j = 0)) := by
  have h0 : ∀ k, 0 ≤ remaining clock limit k := fun k => le_max_right _ _
  refine ⟨h0, fun k hk => max_eq_right (by linarith), fun hm i j hij => ?_⟩
  have h1 : remaining clock limit j ≤ remaining clock limit i :=
    max_le_max (by have := hm hij; linarith) le_rfl
  exact ⟨h1, fun h => le_antisymm (h ▸ h1) (h0 j)⟩

/-- **C56 (solve).** In every run every bounding step (upper or lower) starts when the last
reading of the remaining time was positive, and after the first reading without remaining time
the clock is read at most four times more (the run is over), whatever the answers of the solver. -/
theorem C56_time_limit (env : Env) (cfg : Cfg) (I : Inst) (rounds fuel : ℕ)
    (r : Except PyErr (Bool × Gap)) (s : St) (h : run env cfg I rounds fuel = .ok (r, s)) :
    (∀ t ∈ s.steps, 0 < t)
    ∧ (Monotone env.clock → ∀ k, 1 ≤ k → remaining env.clock cfg.timeLimit k = 0 →
        s.reads ≤ k + 4) := by
  constructor
  · have hJ : Closed env cfg fun w => ∀ t ∈ w.steps, 0 < t := by
      refine ⟨⟨⟨fun w v h _ => h, fun w v h _ => h⟩, fun _ _ _ _ h _ => h⟩, ⟨fun w h => h, fun w h => h⟩,
        fun w h h0 t ht => ?_, fun w h => h⟩
      rcases List.mem_append.1 ht with ht | ht
      · exact h t ht
      · rw [List.mem_singleton] at ht; rw [ht]; exact h0
    obtain ⟨w, h1, h2⟩ := run_view hJ (fun _ h => h) (fun s0 hc => by
      have := (construct_start hc).2.2.1
      show ∀ t ∈ s0.steps, 0 < t
      rw [this]; simp) h
    have : s.steps = w.steps := by
      rcases h2 with h2 | ⟨-, l, h2⟩
      · exact congrArg View.steps h2
      · exact congrArg View.steps h2
    rw [this]; exact h1
  · intro hm k hk h0
    obtain ⟨s0, hc, hs⟩ := run_inv h
    have := late_solve (I := I) (cfg := cfg) hm rounds fuel s0 (construct_start hc).2.1
    have hl : Late env cfg s := by
      unfold wp at this; rw [hs] at this
      cases r <;> exact this
    by_contra hlt
    have := hl k hk (by omega)
    rw [h0] at this
    exact lt_irrefl _ this

/-- A time limit that interrupts the example in its second iteration. -/
example : outcome (run (bruteEnv exNorm 1) { exCfg with timeLimit := 7 } exPairs 10 10) = some
    { error := none, result := some (false, .fin 1), partition := [[0, 2, 3], [1]], iteration := 2
      reads := 8, steps := [6, 4, 1]
      trace := [(⊤, ⊥), ((2 : ℚ), ⊥), ((2 : ℚ), (1 : ℚ))] } := by
  decide +kernel

/-! ## The gap -/

/-- **C21.** If the computed gap is at most `g` and `vLB` is positive, then both bounds are known
and `vUB ≤ (1 + g) * vLB`; the gap is infinite while a bound is missing; with both bounds known
and `vLB` positive it is the relative difference.  Missing from the full claim: non-positive
`vLB`, for which it is false (`C21_counterexample`) or the computation raises
(`C21_division_by_zero`). -/
theorem C21_gap_certifies_partial (vUB : WithTop ℚ) (vLB : WithBot ℚ) (numpy : Bool) (gap : Gap)
    (h : computeGap vUB vLB numpy = .ok gap) :
    (∀ g : ℚ, (∀ l : ℚ, vLB = l → 0 < l) → gap.le g = true →
      ∃ u l : ℚ, vUB = u ∧ vLB = l ∧ u ≤ (1 + g) * l)
    ∧ (vUB = ⊤ ∨ vLB = ⊥ → gap = .posInf)
    ∧ ∀ u l : ℚ, vUB = u → vLB = l → 0 < l → gap = .fin ((u - l) / l) := by
  unfold computeGap at h
  refine ⟨fun g hl hg => ?_, fun hm => ?_, fun u l hu hl h0 => ?_⟩
  · cases vLB with
    | bot => simp only at h; cases h; cases hg
    | coe l =>
      cases vUB with
      | top => simp only at h; cases h; cases hg
      | coe u =>
        have h0 := hl l rfl
        simp only [if_neg h0.ne'] at h
        cases h
        refine ⟨u, l, rfl, rfl, ?_⟩
        have : (u - l) / l ≤ g := by simpa [Gap.le] using hg
        rw [div_le_iff₀ h0] at this
        linarith
  · cases vLB with
    | bot => simp only at h; cases h; rfl
    | coe l =>
      rcases hm with hm | hm
      · subst hm; simp only at h; cases h; rfl
      · cases hm
  · subst hu hl
    simp only [if_neg h0.ne'] at h
    cases h; rfl

/-- With a negative lower bound the gap is negative and certifies nothing. -/
theorem C21_counterexample :
    computeGap ((5 : ℚ) : WithTop ℚ) ((-1 : ℚ) : WithBot ℚ) false = .ok (.fin (-6))
    ∧ (Gap.fin (-6)).le 0 = true ∧ ¬ (5 : ℚ) ≤ (1 + 0) * (-1) := by
  refine ⟨?_, by decide +kernel, by norm_num⟩
  have : computeGap ((5 : ℚ) : WithTop ℚ) ((-1 : ℚ) : WithBot ℚ) false
    = if (-1 : ℚ) = 0 then .error .zeroDivisionError else .ok (.fin ((5 - -1) / -1)) := rfl
  rw [this, if_neg (by norm_num)]
  norm_num

/-- With `vLB = 0` the division raises `ZeroDivisionError` on Python floats. -/
theorem C21_division_by_zero (u : ℚ) :
    computeGap (u : WithTop ℚ) ((0 : ℚ) : WithBot ℚ) false = .error .zeroDivisionError := rfl

/-- The gap of the current bounds in all cases, among them `vLB = 0`: an exception if both bounds are
Python floats, otherwise the infinity or `nan` of numpy.  The state does not change. -/
theorem C21_gap_cases (s : St) :
    (s.vUB = ⊤ ∨ s.vLB = ⊥ → currentGap s = (.ok .posInf, s))
    ∧ ∀ u l : ℚ, s.vUB = u → s.vLB = l →
      (l ≠ 0 → currentGap s = (.ok (.fin ((u - l) / l)), s))
      ∧ (l = 0 → s.vUBNumpy = false → s.vLBNumpy = false →
        currentGap s = (.error .zeroDivisionError, s))
      ∧ (l = 0 → s.vUBNumpy = true ∨ s.vLBNumpy = true →
        currentGap s = (.ok (if 0 < u then .posInf else if u < 0 then .negInf else .nan), s)) := by
  have h0 : currentGap s = (computeGap s.vUB s.vLB (s.vUBNumpy || s.vLBNumpy), s) := rfl
  rw [h0]
  refine ⟨fun h => ?_, fun u l hu hl => ?_⟩
  · rcases h with h | h
    · rw [h]
      cases s.vLB <;> rfl
    · rw [h]
      cases s.vUB <;> rfl
  · have h1 : ∀ b, computeGap (u : WithTop ℚ) (l : WithBot ℚ) b = if l = 0 then
        if b then .ok (if 0 < u then .posInf else if u < 0 then .negInf else .nan)
        else .error .zeroDivisionError
      else .ok (.fin ((u - l) / l)) := fun _ => rfl
    rw [hu, hl, h1]
    refine ⟨fun h => by rw [if_neg h], fun h a b => by rw [if_pos h, a, b]; rfl, fun h a => ?_⟩
    rw [if_pos h]
    rcases a with a | a
    · rw [a]; rfl
    · rw [a, Bool.or_true]; rfl

example : computeGap ((101 : ℚ) : WithTop ℚ) ((100 : ℚ) : WithBot ℚ) false
    = .ok (.fin (1 / 100)) := by
  have : computeGap ((101 : ℚ) : WithTop ℚ) ((100 : ℚ) : WithBot ℚ) false
    = if (100 : ℚ) = 0 then .error .zeroDivisionError else .ok (.fin ((101 - 100) / 100)) := rfl
  rw [this, if_neg (by norm_num)]
  norm_num

/-! ## The lower-bound step -/

/-- **C20.** In every state with `vLB ≥ -1e6`, a lower-bound step whose problem is reported
infeasible leaves `vLB` and `xLB` unchanged, also if it raises.  Missing from the full claim: states
with a smaller or no lower bound, for which it is false (`C20_counterexample`): the value `-1e6`
that stands for an infeasible model is stored. -/
theorem C20_infeasible_keeps_bound_partial (env : Env) (cfg : Cfg) (I : Inst) (x : Option Vec)
    (s s' : St) (r : Except PyErr Gap) (hs : ((-(10 ^ 6) : ℚ) : WithBot ℚ) ≤ s.vLB)
    (hinf : ∀ g, (env.lb s.tick g).status = 3) (h : lowerBound env cfg I x s = (r, s')) :
    s'.vLB = s.vLB ∧ s'.xLB = s.xLB := by
  have hout : ∀ st' out, deterministicBound env.norm env.argsort I cfg.projection (env.lb s.tick)
      s.lb s.vLB x = .ok (st', out) → out.v = -(10 ^ 6) := by
    intro st' out hd
    unfold deterministicBound at hd
    cases h1 : indexScenarios env.norm I cfg.projection s.lb.counter x with
    | error e => rw [h1] at hd; cases hd
    | ok index =>
      rw [h1] at hd
      simp only [bind, Except.bind] at hd
      cases h2 : selectedScenarios env.argsort I index with
      | error e => rw [h2] at hd; cases hd
      | ok o =>
        rw [h2] at hd
        cases o with
        | none => cases hd
        | some sel =>
          simp only [solveDeter, bind, Except.bind] at hd
          cases h3 : updateDeter I s.lb s.vLB sel with
          | error e => rw [h3] at hd; cases hd
          | ok st =>
            rw [h3] at hd
            have h4 := hinf st.deter.g
            simp only [optimize, h4, Nat.reduceEqDiff, if_false, readDeter, if_true] at hd
            cases hd; rfl
  have key : wp (lowerBound env cfg I x) (fun _ s' => s'.vLB = s.vLB ∧ s'.xLB = s.xLB)
      (fun _ s' => s'.vLB = s.vLB ∧ s'.xLB = s.xLB) s := by
    unfold lowerBound storeLB currentGap storeInfo
    wp_simp
    refine ⟨fun a ha => ?_, fun _ _ => ⟨trivial, trivial⟩⟩
    have hv := hout a.1 a.2 ha
    rw [hv]
    refine ⟨fun hlt => absurd hlt (not_lt.2 hs), fun _ => ?_⟩
    exact ⟨fun _ _ => ⟨trivial, trivial⟩, fun _ _ => ⟨trivial, trivial⟩⟩
  unfold wp at key
  rw [h] at key
  cases r <;> exact key

/-- Four scenarios: the even ones forbid the item, the odd ones require it. -/
def exOpposed : Inst :=
  { n := 1, N := 4, m := 1, A := fun s _ _ => if s % 2 = 0 then 1 else -1
    b := fun s _ => if s % 2 = 0 then 0 else -1, c := fun _ => 1
    proba := fun _ => 1 / 4, eps := 1 / 4, cont := false }

/-- **C20 fails without a lower bound**, in a whole run: the infeasible lower-bound model sets
`vLB` from minus infinity to `-1e6`, and then the (negative) gap stops the run as if the required
gap had been reached. -/
theorem C20_counterexample :
    outcome (run (bruteEnv exNorm 1) exCfg exOpposed 10 10) = some
      { error := none, result := some (false, .fin (-1000001 / 1000000))
        partition := [[0, 2], [1, 3]], iteration := 1, reads := 3, steps := [99, 97]
        trace := [(⊤, ⊥), ((1 : ℚ), ⊥), ((1 : ℚ), ((-(10 ^ 6) : ℚ) : WithBot ℚ))] } := by
  decide +kernel

/-- An infeasible lower-bound model in a state with a lower bound. -/
example : ∃ (env : Env) (s : St), construct env exCfg exOpposed = .ok s
    ∧ ((-(10 ^ 6) : ℚ) : WithBot ℚ) ≤ { s with vLB := ((0 : ℚ) : WithBot ℚ) }.vLB
    ∧ ∀ k g, (env.lb k g).status = 3 := by
  have h : (construct { bruteEnv exNorm 1 with lb := fun _ _ => ⟨3, none, 0, 0⟩ } exCfg
      exOpposed).toOption.isSome = true := by decide +kernel
  cases hc : construct { bruteEnv exNorm 1 with lb := fun _ _ => ⟨3, none, 0, 0⟩ } exCfg exOpposed with
  | error e => rw [hc] at h; cases h
  | ok s => exact ⟨_, s, hc, WithBot.coe_le_coe.2 (by norm_num), fun _ _ => rfl⟩

end Verif.Props
