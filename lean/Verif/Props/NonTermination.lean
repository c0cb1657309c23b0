import Verif.Props.Certificates

/-!
# C54: with merging `solve` need not terminate

An instance on which, for all valid answers of the solver, all random choices and all
configurations with merging, the main loop never ends unless time runs out.
-/

namespace Verif.Props
open Spec Model Finset

/-- Three scenarios of which one may be violated; at most one item fits.  Item 0 has weight 1 in
all scenarios and value 1; item `s + 1` has value 2 and weight 1 in scenario `s` only. -/
def exCycle : Inst :=
  { n := 4, N := 3, m := 1
    A := fun s _ j => if j = 0 ∨ j = s + 1 then 1 else 2
    b := fun _ _ => 1, c := fun j => if j = 0 then 1 else 2
    proba := fun _ => 1 / 3, eps := 1 / 3, cont := false }

namespace Cycle

theorem kmax_eq : kmax exCycle = 1 := by
  norm_num [kmax, exCycle]

theorem binary {x : Vec} (h : InX exCycle x) :
    (x 0 = 0 ∨ x 0 = 1) ∧ (x 1 = 0 ∨ x 1 = 1) ∧ (x 2 = 0 ∨ x 2 = 1) ∧ (x 3 = 0 ∨ x 3 = 1) := by
  have h' : ∀ j < 4, x j = 0 ∨ x j = 1 := fun j hj => by simpa [exCycle] using h j hj
  exact ⟨h' 0 (by decide), h' 1 (by decide), h' 2 (by decide), h' 3 (by decide)⟩

theorem obj_eq (x : Vec) : obj exCycle x = x 0 + 2 * x 1 + 2 * x 2 + 2 * x 3 := by
  simp [obj, dot, exCycle, Finset.sum_range_succ]

theorem load_eq (s : ℕ) (x : Vec) : dot exCycle.n (exCycle.A s 0) x
    = x 0 + (if s = 0 then 1 else 2) * x 1 + (if s = 1 then 1 else 2) * x 2
      + (if s = 2 then 1 else 2) * x 3 := by
  simp only [dot, exCycle, Finset.sum_range_succ, Finset.range_zero, Finset.sum_empty]
  have h1 : (1 = 0 ∨ 1 = s + 1) ↔ s = 0 := by omega
  have h2 : (2 = 0 ∨ 2 = s + 1) ↔ s = 1 := by omega
  have h3 : (3 = 0 ∨ 3 = s + 1) ↔ s = 2 := by omega
  simp only [h1, h2, h3, true_or, if_true]
  ring

theorem sat_iff (s : ℕ) (x : Vec) : Sat exCycle s x ↔
    x 0 + (if s = 0 then 1 else 2) * x 1 + (if s = 1 then 1 else 2) * x 2
      + (if s = 2 then 1 else 2) * x 3 ≤ 1 := by
  rw [← load_eq]
  constructor
  · intro h; exact h 0 (by decide)
  · intro h i hi
    have : i = 0 := Nat.lt_one_iff.1 hi
    subst this; exact h

theorem viol_of {s : ℕ} {x : Vec} (h : 2 ≤ dot exCycle.n (exCycle.A s 0) x) :
    ViolBy exCycle tol s x := by
  refine ⟨0, by decide, ?_⟩
  show tol < _ - 1
  unfold tol
  linarith

/-- A point above the feasible objectives clearly violates two scenarios. -/
theorem above {x : Vec} (hx : InX exCycle x) (h : 1 < obj exCycle x) :
    2 ≤ (violBy exCycle tol x).card := by
  have key : ∀ a b, a ≠ b → a < 3 → b < 3 → 2 ≤ dot exCycle.n (exCycle.A a 0) x →
      2 ≤ dot exCycle.n (exCycle.A b 0) x → 2 ≤ (violBy exCycle tol x).card := by
    intro a b hab ha hb h1 h2
    have : ({a, b} : Finset ℕ) ⊆ violBy exCycle tol x := by
      intro s hs
      rcases Finset.mem_insert.1 hs with rfl | hs
      · exact Finset.mem_filter.2 ⟨Finset.mem_range.2 ha, viol_of h1⟩
      · rw [Finset.mem_singleton.1 hs]
        exact Finset.mem_filter.2 ⟨Finset.mem_range.2 hb, viol_of h2⟩
    have := Finset.card_le_card this
    rwa [Finset.card_pair hab] at this
  obtain ⟨h0, h1, h2, h3⟩ := binary hx
  rw [obj_eq] at h
  have hp : ∀ j, x j = 0 ∨ x j = 1 → 0 ≤ x j := by rintro j (h | h) <;> rw [h] <;> norm_num
  have p0 := hp 0 h0
  have p1 := hp 1 h1
  have p2 := hp 2 h2
  have p3 := hp 3 h3
  rcases h1 with e1 | e1
  · rcases h2 with e2 | e2
    · rcases h3 with e3 | e3
      · exfalso
        rw [e1, e2, e3] at h
        rcases h0 with e0 | e0 <;> rw [e0] at h <;> norm_num at h
      · refine key 0 1 (by decide) (by decide) (by decide) ?_ ?_ <;> rw [load_eq, e1, e2, e3] <;>
          norm_num <;> linarith
    · refine key 0 2 (by decide) (by decide) (by decide) ?_ ?_ <;> rw [load_eq, e1, e2] <;>
        norm_num <;> linarith
  · refine key 1 2 (by decide) (by decide) (by decide) ?_ ?_ <;> rw [load_eq, e1] <;>
      norm_num <;> linarith

theorem equi : Equi exCycle := ⟨by decide, fun s _ => by norm_num [exCycle]⟩

/-- The optimal value is 1. -/
theorem feas_le {x : Vec} (h : Feas exCycle x) : obj exCycle x ≤ 1 := by
  by_contra hlt
  have h1 := above h.1 (not_le.1 hlt)
  have h2 := (chance_iff_card exCycle equi (by norm_num [exCycle]) x).1 h.2
  rw [kmax_eq] at h2
  have h3 : violBy exCycle tol x ⊆ viol exCycle x := fun s hs => by
    obtain ⟨a, i, hi, hv⟩ := Finset.mem_filter.1 hs
    refine Finset.mem_filter.2 ⟨a, fun hsat => ?_⟩
    have := hsat i hi
    unfold tol at hv
    linarith
  have := Finset.card_le_card h3
  omega

/-- One satisfied scenario bounds the objective by 2. -/
theorem sat_le {x : Vec} (hx : InX exCycle x) {s : ℕ} (h : Sat exCycle s x) :
    obj exCycle x ≤ 2 := by
  rw [sat_iff] at h
  rw [obj_eq]
  obtain ⟨h0, h1, h2, h3⟩ := binary hx
  rcases h0 with h0 | h0 <;> rcases h1 with h1 | h1 <;> rcases h2 with h2 | h2 <;>
    rcases h3 with h3 | h3 <;> rw [h0, h1, h2, h3] at h <;> rw [h0, h1, h2, h3] <;>
    split_ifs at h <;> first | linarith | omega

/-- Two satisfied scenarios bound it by 1. -/
theorem sat2_le {x : Vec} (hx : InX exCycle x) {a b : ℕ} (hab : a ≠ b)
    (ha : Sat exCycle a x) (hb : Sat exCycle b x) : obj exCycle x ≤ 1 := by
  rw [sat_iff] at ha hb
  rw [obj_eq]
  obtain ⟨h0, h1, h2, h3⟩ := binary hx
  have hp : ∀ j, x j = 0 ∨ x j = 1 → 0 ≤ x j := by rintro j (h | h) <;> rw [h] <;> norm_num
  have nn : ∀ s k j : ℕ, 0 ≤ x j → 0 ≤ (if s = k then (1 : ℚ) else 2) * x j := fun s k j h =>
    mul_nonneg (by split_ifs <;> norm_num) h
  have p0 := hp 0 h0
  have a1 := nn a 0 1 (hp 1 h1)
  have a2 := nn a 1 2 (hp 2 h2)
  have a3 := nn a 2 3 (hp 3 h3)
  have b1 := nn b 0 1 (hp 1 h1)
  have b2 := nn b 1 2 (hp 2 h2)
  have b3 := nn b 2 3 (hp 3 h3)
  have key : ∀ k j, (x j = 0 ∨ x j = 1) → (if a = k then (1 : ℚ) else 2) * x j ≤ 1 →
      (if b = k then (1 : ℚ) else 2) * x j ≤ 1 → x j = 0 := by
    rintro k j (h | h) h4 h5
    · exact h
    · exfalso
      rw [h] at h4 h5
      by_cases hk : a = k
      · rw [if_neg fun hk' => hab (hk.trans hk'.symm)] at h5; norm_num at h5
      · rw [if_neg hk] at h4; norm_num at h4
  rw [key 0 1 h1 (by linarith) (by linarith), key 1 2 h2 (by linarith) (by linarith),
    key 2 3 h3 (by linarith) (by linarith)]
  linarith

/-- Choosing item `j` only. -/
def pick (j : ℕ) : Vec := fun i => if i = j then 1 else 0

theorem pick_inX (j : ℕ) : InX exCycle (pick j) := fun i _ => by
  unfold pick exCycle
  by_cases h : i = j <;> simp [h]

theorem pick_sat {s : ℕ} (hs : s < 3) : Sat exCycle s (pick (s + 1)) := by
  rw [sat_iff]
  interval_cases s <;> norm_num [pick]

theorem pick_obj {s : ℕ} (hs : s < 3) : obj exCycle (pick (s + 1)) = 2 := by
  rw [obj_eq]
  interval_cases s <;> norm_num [pick]

theorem pick0_sat (s : ℕ) : Sat exCycle s (pick 0) := by
  rw [sat_iff]
  norm_num [pick]

theorem pick0_obj : obj exCycle (pick 0) = 1 := by rw [obj_eq]; norm_num [pick]

/-- A point of objective 1 satisfies all scenarios. -/
theorem one_sat {x : Vec} (hx : InX exCycle x) (h : obj exCycle x = 1) (s : ℕ) :
    Sat exCycle s x := by
  rw [obj_eq] at h
  rw [sat_iff]
  obtain ⟨h0, h1, h2, h3⟩ := binary hx
  rcases h0 with h0 | h0 <;> rcases h1 with h1 | h1 <;> rcases h2 with h2 | h2 <;>
    rcases h3 with h3 | h3 <;> rw [h0, h1, h2, h3] at h <;> rw [h0, h1, h2, h3] <;>
    first | linarith | norm_num

/-- A partition into two subsets: a singleton and a pair. -/
theorem two_parts {P : List (List ℕ)} (hP : IsPartition exCycle.N P) (hl : P.length = 2) :
    ∃ s a b, s < 3 ∧ a ≠ b ∧ (P = [[s], [a, b]] ∨ P = [[a, b], [s]]) := by
  have h1 := hP.1.length_eq
  have h2 := hP.1.nodup_iff.2 List.nodup_range
  have hm : ∀ t ∈ P.flatten, t < 3 := fun t ht => List.mem_range.1 (hP.1.mem_iff.1 ht)
  match P, hl with
  | [p, q], _ =>
    have hp := hP.2 p (by simp)
    have hq := hP.2 q (by simp)
    have h3 : p.length + q.length = 3 := by simpa [exCycle] using h1
    match p, q, hp, hq with
    | [s], q, _, _ =>
      match q, h3 with
      | [a, b], _ =>
        exact ⟨s, a, b, hm s (by simp), by simp at h2; tauto, .inl rfl⟩
    | [a, b], q, _, _ =>
      match q, h3 with
      | [s], _ =>
        exact ⟨s, a, b, hm s (by simp), by simp at h2; tauto, .inr rfl⟩
    | _ :: _ :: _ :: p, q, _, hq =>
      cases q with
      | nil => exact absurd rfl hq
      | cons _ _ => simp at h3; omega

/-- Every problem with two subsets has a point of objective 2. -/
theorem part_point {P : List (List ℕ)} (hP : IsPartition exCycle.N P) (hl : P.length = 2) :
    ∃ y, PartFeas exCycle P y ∧ obj exCycle y = 2 := by
  obtain ⟨s, a, b, hs, -, h⟩ := two_parts hP hl
  refine ⟨pick (s + 1), ⟨pick_inX _, ?_⟩, pick_obj hs⟩
  rw [kmax_eq]
  have h1 : SatAll exCycle [s] (pick (s + 1)) := fun t ht => by
    rw [List.mem_singleton.1 ht]; exact pick_sat hs
  have hd : decide (¬ SatAll exCycle [s] (pick (s + 1))) = false := by simpa using h1
  rcases h with rfl | rfl
  · unfold nbViolParts
    rw [List.countP_cons, hd]
    simpa using List.countP_le_length (l := [[a, b]])
      (p := fun p => ¬ SatAll exCycle p (pick (s + 1)))
  · unfold nbViolParts
    have h2 : [[s]].countP (fun p => ¬ SatAll exCycle p (pick (s + 1))) = 0 := by
      rw [List.countP_cons, hd]; simp
    rw [show [[a, b], [s]] = [[a, b]] ++ [[s]] from rfl, List.countP_append, h2]
    simpa using List.countP_le_length (l := [[a, b]])
      (p := fun p => ¬ SatAll exCycle p (pick (s + 1)))

/-- The pair has a feasible optimal solution of value 1. -/
theorem part_incumbent {P : List (List ℕ)} (hP : IsPartition exCycle.N P) (hl : P.length = 2)
    {costs : List ℚ} {sols : List Vec} (h : PartCosts exCycle P costs sols) :
    ∃ x ∈ sols, InX exCycle x ∧ obj exCycle x = 1 := by
  obtain ⟨s, a, b, -, hab, hcase⟩ := two_parts hP hl
  have key : ∀ c < P.length, P.getD c [] = [a, b] → ∃ x ∈ sols, InX exCycle x ∧ obj exCycle x = 1 := by
    intro c hc hp
    have hd := h.2.2 c hc
    rw [hp] at hd
    have hlt : c < sols.length := by rw [h.2.1]; exact hc
    refine ⟨sols.getD c fun _ => 0, ?_, hd.1.1, le_antisymm ?_ ?_⟩
    · rw [List.getD_eq_getElem _ _ hlt]; exact List.getElem_mem _
    · exact sat2_le hd.1.1 hab (hd.1.2.1 a (by simp)) (hd.1.2.1 b (by simp))
    · rw [hd.1.2.2, ← pick0_obj]
      exact hd.2 _ (pick_inX 0) fun s _ => pick0_sat s
  rcases hcase with rfl | rfl
  · exact key 1 (by simp) rfl
  · exact key 0 (by simp) rfl

end Cycle

variable {env : Env} {cfg : Cfg} {rounds : ℕ}

/-- What holds at the start of every iteration. -/
structure Stuck (env : Env) (cfg : Cfg) (rounds : ℕ) (s : St) : Prop where
  inv : LInv env cfg exCycle rounds s
  feas : FeasInv env exCycle s
  two : s.partition.length = 2
  lb : ((1 : ℚ) : WithBot ℚ) ≤ s.vLB
  time : 0 < s.lastRem

theorem closed_lb (env : Env) (cfg : Cfg) :
    Closed env cfg fun w => ((1 : ℚ) : WithBot ℚ) ≤ w.vLB :=
  ⟨⟨⟨fun _ _ h hv => h.trans hv.le, fun _ _ h _ => h⟩, fun _ _ _ _ h _ => h⟩, ⟨fun _ h => h, fun _ h => h⟩,
    fun _ h _ => h, fun _ h => h⟩

theorem two_le {s : St} (h : UBound exCycle s.partition s.vUB)
    (hP : IsPartition exCycle.N s.partition) (h2 : s.partition.length = 2) :
    ((2 : ℚ) : WithTop ℚ) ≤ s.vUB := by
  obtain ⟨y, h3, h4⟩ := Cycle.part_point hP h2
  rw [← h4]; exact h y h3

theorem wp_iterate_stuck (hC : Contract env exCycle) (hS : Strong env cfg exCycle rounds)
    (hm : cfg.useMerger = true) (hgap : cfg.gap < 1)
    (hclock : ∀ k, 0 < remaining env.clock cfg.timeLimit k) (gap : Gap) (s : St)
    (h : Stuck env cfg rounds s) :
    wp (iterate env cfg exCycle rounds gap)
      (fun r s' => ∃ g t, r = .next g t ∧ 0 < t ∧ Stuck env cfg rounds s')
      (fun _ _ => False) s := by
  refine wp_mono (wp_and (wp_iterate_bounds hC (gap := gap) s h.inv h.feas)
    (wp_iterate (closed_lb env cfg) rounds gap s h.lb h.time)) (fun r s' h' => ?_)
    fun e s' h' => ?_
  · obtain ⟨h1, h2, h3⟩ := h'
    have hlb : ((1 : ℚ) : WithBot ℚ) ≤ s'.vLB := h2
    cases r with
    | stop b g =>
      exfalso
      obtain ⟨a1, -, a3, -, a5⟩ := h1
      cases b with
      | true =>
        obtain ⟨⟨out, o1, o2, -, -, o5, -⟩, -, hp⟩ := a3 rfl
        have hl : s'.partition.length = 2 := by rw [hp]; exact h.two
        obtain ⟨y, y1, y2⟩ := Cycle.part_point a1.shape.part hl
        have h4 := o1.bound y y1
        rw [y2, ← o5 (by rw [hl, Cycle.kmax_eq]), ← o1.obj] at h4
        have h5 := Cycle.above o1.point.1 (by linarith)
        have h6 := (C01_is_feasible_verdict env.norm exCycle out.x).1.1 o2
        have h7 : ((violBy exCycle tol out.x).card : ℚ) ≤ 1 := by
          refine h6.trans (le_of_eq ?_)
          norm_num [exCycle]
        have h8 : ((2 : ℕ) : ℚ) ≤ (violBy exCycle tol out.x).card := by exact_mod_cast h5
        have h9 := h8.trans h7
        norm_num at h9
      | false =>
        rcases a5 rfl with ⟨hp, hg, b, hb⟩ | ⟨k, hk⟩
        · have hl : s'.partition.length = 2 := by rw [hp]; exact h.two
          have hu := two_le a1.ub a1.shape.part hl
          cases hv : s'.vLB with
          | bot => rw [hv] at hlb; exact absurd hlb (by simp)
          | coe l =>
            obtain ⟨x, -, x1, x2⟩ := a1.br.lb l hv
            have hl1 := Cycle.feas_le x1
            rw [hv] at hlb
            have hl2 := WithBot.coe_le_coe.1 hlb
            have hl3 : l = 1 := le_antisymm (x2 ▸ hl1) hl2
            subst hl3
            rw [hv] at hb
            cases hw : s'.vUB with
            | top => rw [hw] at hb; cases hb; cases hg
            | coe u =>
              rw [hw] at hb hu
              have hb' : computeGap (u : WithTop ℚ) ((1 : ℚ) : WithBot ℚ) b
                  = .ok (.fin ((u - 1) / 1)) := by
                show (if (1 : ℚ) = 0 then (if b then Except.ok
                  (if 0 < u then Gap.posInf else if u < 0 then .negInf else .nan)
                  else .error PyErr.zeroDivisionError) else .ok (.fin ((u - 1) / 1))) = _
                exact if_neg one_ne_zero
              have hb2 := hb'.symm.trans hb
              cases hb2
              have h4 := WithTop.coe_le_coe.1 hu
              have h5 : (u - 1) / 1 ≤ cfg.gap := by simpa [Gap.le] using hg
              rw [div_one] at h5
              linarith
        · exact absurd (hclock k) (not_lt.2 hk)
    | next g t =>
      obtain ⟨a1, a2, -, -, -, -, -, ⟨k, hk⟩, a7⟩ := h1
      have ht : 0 < t := by rw [hk]; exact hclock k
      refine ⟨g, t, rfl, ht, a1, a2, ?_, hlb, by rw [h3 g t rfl]; exact ht⟩
      rcases a7 hm with h4 | ⟨h4, P, p1, p2, p, hp, v, x, hd, hlt⟩
      · rw [h4]; exact h.two
      · exfalso
        obtain ⟨y, y1, y2⟩ := Cycle.part_point h.inv.shape.part h.two
        have h5 := h4 y y1
        rw [y2] at h5
        obtain ⟨t, ht⟩ := List.exists_mem_of_ne_nil p (p1.2 p hp)
        have h6 := Cycle.sat_le hd.1.1 (hd.1.2.1 t ht)
        rw [hd.1.2.2] at h6
        exact absurd (h5.trans_lt hlt) (not_lt.2 (WithTop.coe_le_coe.2 h6))
  · obtain ⟨⟨-, h1⟩, h2⟩ := h'
    have hlb : ((1 : ℚ) : WithBot ℚ) ≤ s'.vLB := h2
    rcases h1 hS with ⟨-, h3⟩ | ⟨-, h3⟩ | ⟨-, h3⟩
    · rw [h3] at hlb
      have := WithBot.coe_le_coe.1 hlb
      norm_num at this
    · cases h3
    · exact absurd h3 (hclock _).ne'

theorem wp_mainLoop_stuck (hC : Contract env exCycle) (hS : Strong env cfg exCycle rounds)
    (hm : cfg.useMerger = true) (hgap : cfg.gap < 1)
    (hclock : ∀ k, 0 < remaining env.clock cfg.timeLimit k) : ∀ (fuel : ℕ) (gap : Gap) (t : ℚ)
    (s : St), Stuck env cfg rounds s → 0 < t →
    wp (mainLoop env cfg exCycle rounds fuel gap t) (fun _ _ => False) (fun e _ => e = .fuel) s
  | fuel, gap, t, s, h, ht => by
    unfold mainLoop
    rw [if_pos ht]
    cases fuel with
    | zero => exact rfl
    | succ fuel =>
      simp only
      rw [wp_bind]
      refine wp_mono (wp_iterate_stuck hC hS hm hgap hclock gap s h) (fun r s1 h1 => ?_)
        fun _ _ h' => h'.elim
      obtain ⟨g, t', rfl, ht', h1⟩ := h1
      exact wp_mainLoop_stuck hC hS hm hgap hclock fuel g t' s1 h1 ht'

/-- The start finds the incumbent of value 1. -/
theorem wp_start_lb (hC : Contract env exCycle) {s : St} (h : construct env cfg exCycle = .ok s) :
    wp (startSolve env exCycle) (fun _ s' => ((1 : ℚ) : WithBot ℚ) ≤ s'.vLB)
      (fun _ _ => True) s := by
  obtain ⟨p1, p2, p3, p4⟩ := construct_part h
  obtain ⟨-, -, -, c4, -⟩ := construct_start h
  obtain ⟨b1, b2, -⟩ := construct_bounds hC h
  unfold startSolve improveFirst
  rw [wp_bind, wp_nextTick, wp_bind, wp_get, wp_bind, wp_lift]
  refine ⟨fun r hr => ?_, fun _ _ => trivial⟩
  have hpc := aligned_costs hC (partitionCost_aligned (env := env) hr)
  have hl : s.partition.length = 2 := by
    rw [p3, minSize_eq hC.eps, Cycle.kmax_eq]
  obtain ⟨x, hx, hxX, hx1⟩ := Cycle.part_incumbent p1 hl hpc
  rw [wp_bind, wp_modify, wp_bind, wp_bind, wp_get, wp_ite]
  refine ⟨fun _ => trivial, fun _ => ?_⟩
  have hfe : Feas exCycle x := by
    refine ⟨hxX, (chance_iff_card exCycle hC.equi hC.eps x).2 ?_⟩
    unfold viol
    rw [Finset.filter_false_of_mem fun s _ => not_not.2 (Cycle.one_sat hxX hx1 s)]
    simp
  have hadm : Admissible exCycle s.vUB s.vLB x := by
    refine ⟨?_, b1.ub x hfe, fun l hl => ?_⟩
    · unfold violBy
      rw [Finset.filter_false_of_mem]
      · norm_num [exCycle]
      · rintro s - ⟨i, hi, hv⟩
        have := Cycle.one_sat hxX hx1 s i hi
        have : (0 : ℚ) < 1 / 10 ^ 6 := by norm_num
        linarith
    · rw [c4] at hl; cases hl
  refine wp_improve (fun hn => ?_) fun y v hy => ?_
  · exact absurd hadm ((C19_best_incumbent env.norm env.argsort exCycle r.2 s.vUB s.vLB).2.1 hn x hx)
  · obtain ⟨-, -, -, h4⟩ := (C19_best_incumbent env.norm env.argsort exCycle r.2 s.vUB s.vLB).1 y v hy
    have := h4 x hx hadm
    rw [hx1] at this
    exact WithBot.coe_le_coe.2 this

/-- **C54 fails.**  On this instance, whose optimal value is 1, with merging, for all valid
answers of the solver, all random choices, norms, sorting routines and configurations: as long as
time does not run out, the main loop goes on after every number of iterations. -/
theorem C54_counterexample (hC : Contract env exCycle) (hS : Strong env cfg exCycle rounds)
    (hm : cfg.useMerger = true) (hgap : cfg.gap < 1)
    (hclock : ∀ k, 0 < remaining env.clock cfg.timeLimit k) (fuel : ℕ) :
    ∃ s, run env cfg exCycle rounds fuel = .ok (.error .fuel, s) := by
  obtain ⟨s0, h0⟩ := construct_ok hC hS (by rw [Cycle.kmax_eq]; decide)
  have hrun : run env cfg exCycle rounds fuel = .ok (solve env cfg exCycle rounds fuel s0) := by
    unfold run
    rw [h0]
    rfl
  have hmain : wp (solve env cfg exCycle rounds fuel) (fun _ _ => False) (fun e _ => e = .fuel)
      s0 := by
    unfold solve
    rw [wp_bind]
    refine wp_mono (wp_and (wp_start_bounds (rounds := rounds) hC h0) (wp_start_lb hC h0))
      (fun _ s1 h1 => ?_) fun _ _ h' => h'.1.elim
    obtain ⟨⟨a1, a2, a3⟩, a4⟩ := h1
    rw [wp_bind, wp_availableTime, wp_bind]
    refine wp_mono (wp_mainLoop_stuck hC hS hm hgap hclock fuel (.fin 1) _ _
      ⟨a1.congr rfl, ?_, ?_, a4, hclock _⟩ (hclock _)) (fun _ _ h' => h'.elim) fun _ _ h' => h'
    · intro F hF
      have : s1.feas = some F := hF
      rw [a2] at this
      cases this
    · show s1.partition.length = 2
      rw [a3, (construct_part h0).2.2.1, minSize_eq hC.eps, Cycle.kmax_eq]
  rcases hs : solve env cfg exCycle rounds fuel s0 with ⟨r, s⟩
  rw [hrun, hs]
  cases r with
  | ok q => exact (wp_ok hmain hs).elim
  | error e =>
    have := wp_error hmain hs
    exact ⟨s, by rw [this]⟩

theorem exCycle_contract : Contract (exactEnv exNorm 0) exCycle := by
  have hI : OneDecimal exCycle := by
    refine ⟨by unfold NonnegAb; decide +kernel, fun s _ i _ => ⟨⟨10, by norm_num [exCycle]⟩,
      fun j _ => ?_⟩⟩
    by_cases h : j = 0 ∨ j = s + 1
    · exact ⟨10, by simp only [exCycle, if_pos h]; norm_num⟩
    · exact ⟨20, by simp only [exCycle, if_neg h]; norm_num⟩
  exact contract_of_grid Cycle.equi (by decide +kernel) (by decide +kernel) hI
    (by unfold NonnegC; decide +kernel) (by decide) (by decide) rfl
    (fun _ _ g => exactSolver_exact g) (fun _ g => (exactSolver_exact g).answers.valid)
    (fun _ g => (exactSolver_exact g).answers.valid) (fun _ _ g => (exactSolver_exact g).answers)
    (fun _ g => (exactSolver_exact g).answers)

/-- A solver, a clock that stands still and a configuration that meet the hypotheses. -/
example : Contract (exactEnv exNorm 0) exCycle
    ∧ Strong (exactEnv exNorm 0) exCfg exCycle 10 ∧ exCfg.useMerger = true ∧ exCfg.gap < 1
    ∧ (∀ k, 0 < remaining (exactEnv exNorm 0).clock exCfg.timeLimit k)
    ∧ (outcome (run (exactEnv exNorm 0) exCfg exCycle 10 3)).map
        (fun o => (o.error, o.partition, o.iteration)) = some (some .fuel, [[0], [1, 2]], 4) := by
  refine ⟨exCycle_contract, ?_, rfl, by norm_num [exCfg], fun k => ?_, ?_⟩
  · exact
      { cc := fun _ g => (exactSolver_exact g).answers
        lb := fun _ g => (exactSolver_exact g).answers
        lbInf := fun _ g => (exactSolver_exact g).noPoint
        clock := fun a b _ => by
          show ((a : ℕ) : ℚ) * 0 ≤ ((b : ℕ) : ℚ) * 0
          simp
        method := .inl ⟨rfl, rfl⟩
        init := .inl rfl
        proj := .inl rfl
        bigM := by rintro ⟨⟩
        rounds := by rw [Cycle.kmax_eq]; decide }
  · show 0 < max ((100 : ℚ) - (((k : ℕ) : ℚ) * 0 - ((0 : ℕ) : ℚ) * 0)) 0
    norm_num
  · decide +kernel

/-! ## With a time limit -/

/-- At least `k` readings of the clock, and the last one is known. -/
def Read (env : Env) (cfg : Cfg) (k : ℕ) (w : View) : Prop :=
  k ≤ w.reads ∧ w.lastRem = remaining env.clock cfg.timeLimit w.reads

theorem closed_read (env : Env) (cfg : Cfg) (k : ℕ) : Closed env cfg fun w => k ≤ w.reads :=
  ⟨⟨⟨fun _ _ h _ => h, fun _ _ h _ => h⟩, fun _ _ _ _ h _ => h⟩,
    ⟨fun _ h => Nat.le_succ_of_le h, fun _ h => Nat.le_succ_of_le (Nat.le_succ_of_le h)⟩,
    fun _ h _ => h, fun _ h => h⟩

/-- An iteration that is followed by another one reads the clock. -/
theorem wp_splitMerge_reads (I : Inst) (k : ℕ) (x : Option Vec) (gap : Gap) (s : St)
    (h : k ≤ s.reads) :
    wp (splitMergeStep env cfg I rounds x gap)
      (fun r s' => ∀ g t, r = .next g t → Read env cfg (k + 1) (view s')) (fun _ _ => True) s := by
  have hJ := closed_read env cfg k
  unfold splitMergeStep
  rw [wp_bind]
  refine wp_mono (keeps_split hJ.toClosed0 rounds s h) (fun r s1 h1 => ?_) fun _ _ _ => trivial
  rw [wp_bind]
  refine wp_mono (keeps_merge hJ.toClosed0 x r.1 r.2 s1 h1) (fun _ s2 h2 => ?_)
    fun _ _ _ => trivial
  wp_simp
  refine ⟨fun _ => by rintro g t ⟨⟩, fun _ g t _ => ⟨?_, rfl⟩⟩
  have : k ≤ s2.reads := h2
  show k + 1 ≤ s2.reads + 1 + 1
  omega

theorem wp_iterate_reads (I : Inst) (k : ℕ) (gap : Gap) (s : St)
    (h : k ≤ s.reads) :
    wp (iterate env cfg I rounds gap)
      (fun r s' => ∀ g t, r = .next g t → Read env cfg (k + 1) (view s')) (fun _ _ => True) s := by
  have hJ := closed_read env cfg k
  unfold iterate
  rw [wp_bind]
  refine wp_mono (keeps_currentGap (J := fun w => k ≤ w.reads) s h) (fun _ s0 h0 => ?_) fun _ _ _ => trivial
  rw [wp_bind, wp_markStep, wp_bind]
  refine wp_mono (keeps_bigM _ (J := fun w => k ≤ w.reads) h0) (fun M s1 h1 => ?_)
    fun _ _ _ => trivial
  rw [wp_bind]
  refine wp_mono (keeps_upperBound hJ M s1 h1) (fun r s2 h2 => ?_) fun _ _ _ => trivial
  rw [wp_ite]
  refine ⟨fun _ => by rintro g t ⟨⟩, fun _ => ?_⟩
  rw [wp_bind, wp_availableTime, wp_ite]
  refine ⟨fun _ => by rintro g t ⟨⟩, fun _ => ?_⟩
  unfold lowerStep
  rw [wp_bind, wp_markStep, wp_bind]
  refine wp_mono (keeps_lowerBound hJ.toClosedS r.1 _ (hJ.time.read _ h2)) (fun g s3 h3 => ?_)
    fun _ _ _ => trivial
  rw [wp_ite]
  refine ⟨fun _ => by rintro g t ⟨⟩, fun _ => ?_⟩
  rw [wp_bind, wp_availableTime, wp_ite]
  exact ⟨fun _ => by rintro g t ⟨⟩, fun _ => wp_splitMerge_reads I k r.1 g _ (hJ.time.read _ h3)⟩

theorem wp_mainLoop_reads {I : Inst} (heps : 0 ≤ I.eps) (hr : minSize I ≤ rounds) (R : ℕ)
    (hR : ∀ k, R ≤ k → remaining env.clock cfg.timeLimit k ≤ 0) :
    ∀ (fuel : ℕ) (gap : Gap) (t : ℚ) (k : ℕ) (s : St), SShape env I s → FeasInv env I s →
    Read env cfg k (view s) → s.lastRem = t → R ≤ k + fuel →
    wp (mainLoop env cfg I rounds fuel gap t) (fun _ _ => True) (fun e _ => e ≠ .fuel) s
  | fuel, gap, t, k, s, h, hf, hk, ht, hle => by
    unfold mainLoop
    rw [wp_ite]
    refine ⟨fun h0 => ?_, fun _ => trivial⟩
    cases fuel with
    | zero =>
      exfalso
      have h1 := hR s.reads (le_trans (by simpa using hle) hk.1)
      have h2 : s.lastRem = remaining env.clock cfg.timeLimit s.reads := hk.2
      rw [← h2, ht] at h1
      exact absurd h0 (not_lt.2 h1)
    | succ fuel =>
      simp only
      rw [wp_bind]
      refine wp_mono (wp_and (wp_and (wp_iterate_shape s h hf) (wp_iterate_reads I k gap s hk.1))
        (wp_iterate (closed_read env cfg k) rounds gap s hk.1 (ht ▸ h0))) (fun r s1 h1 => ?_)
        fun _ _ h' hfu => (h'.1.1 hfu).2 ⟨heps, hr⟩
      cases r with
      | stop b g => exact trivial
      | next g t' =>
        obtain ⟨⟨a1, a2⟩, a3⟩ := h1
        exact wp_mainLoop_reads heps hr R hR fuel g t' (k + 1) s1 a1.1 (a1.2.2.2 g t' rfl).1
          (a2 g t' rfl) (a3.2 g t' rfl) (by omega)

/-- **C54, with a time limit.**  For every instance, solver and configuration, with or without
merging: if the limit has passed at the `R`-th reading of the clock and later, the main loop ends
after at most `R` iterations.  Missing from the full claim: termination with merging and without a
time limit, which is false (`C54_counterexample`). -/
theorem C54_time_limit_partial (I : Inst) (heps : 0 ≤ I.eps) (hrounds : kmax I + 1 ≤ rounds)
    (R : ℕ) (hR : ∀ k, R ≤ k → cfg.timeLimit ≤ env.clock k - env.clock 0) (fuel : ℕ)
    (hfuel : R ≤ fuel) (r : Except PyErr (Bool × Gap)) (s : St)
    (h : run env cfg I rounds fuel = .ok (r, s)) : r ≠ .error .fuel := by
  rintro rfl
  obtain ⟨s0, hc, hs⟩ := run_inv h
  obtain ⟨p1, p2, p3, p4⟩ := construct_part hc
  obtain ⟨-, c2, -, -, -, -, hfe, -⟩ := construct_start hc
  have hmain : wp (solve env cfg I rounds fuel) (fun _ _ => True) (fun e _ => e ≠ .fuel) s0 := by
    unfold solve
    rw [wp_bind]
    refine wp_mono (wp_start_shape s0 p1 (p2.trans p3.symm) p4) (fun _ s1 h1 => ?_)
      fun _ _ h' => h'
    obtain ⟨a1, a2, a3, a4⟩ := h1
    rw [wp_bind, wp_availableTime, wp_bind]
    refine wp_mono (wp_mainLoop_reads heps (by rw [minSize_eq heps]; exact hrounds) R
      (fun k hk => ?_) fuel (.fin 1) _ 0 _ ⟨a1.1, a1.2, a1.3, a1.4⟩ ?_ ⟨Nat.zero_le _, rfl⟩ rfl
      (by omega)) (fun q s2 _ => ?_) fun _ _ h' => h'
    · unfold remaining
      exact max_le (by linarith [hR k hk]) le_rfl
    · intro F hF
      have : s1.feas = some F := hF
      rw [a3, hfe] at this
      cases this
    · unfold report
      rw [wp_bind, wp_ite]
      exact ⟨fun _ => trivial, fun _ => trivial⟩
  exact wp_error hmain hs rfl

/-- The same instance with a clock that advances by 10 at every reading: the time limit of 100 ends
the run in the second iteration. -/
example : 0 ≤ exCycle.eps ∧ (∀ k, 10 ≤ k → exCfg.timeLimit
      ≤ (exactEnv exNorm 10).clock k - (exactEnv exNorm 10).clock 0)
    ∧ (outcome (run (exactEnv exNorm 10) exCfg exCycle 10 10)).map
        (fun o => (o.error, o.partition, o.iteration)) = some (none, [[0, 2], [1]], 2) := by
  refine ⟨by decide +kernel, fun k hk => ?_, by decide +kernel⟩
  show (100 : ℚ) ≤ ((k : ℕ) : ℚ) * 10 - ((0 : ℕ) : ℚ) * 10
  have : ((10 : ℕ) : ℚ) ≤ k := by exact_mod_cast hk
  push_cast at this ⊢
  linarith

end Verif.Props
