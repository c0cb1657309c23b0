import Verif.Props.Milp

/-!
# Whole runs with subset costs and incumbents that are only nearly right

Used for subset problems solved within Gurobi's default gap (C78) and for subset solutions that
violate scenarios within the tolerance of `is_feasible` (C79).
-/

namespace Verif.Model
open Spec Props Finset

variable {δ : ℚ} {Good : Vec → Prop} {Sub : List ℕ → Vec → Prop} {Pt : List (List ℕ) → Vec → Prop}
  {big : Prop} {env : Env} {cfg : Cfg} {I : Inst} {rounds : ℕ}

/-- The objective is at most one of the two bounds, up to the factor `1 + δ`. -/
def Covered (δ : ℚ) (I : Inst) (u : WithTop ℚ) (l : WithBot ℚ) (y : Vec) : Prop :=
  ∀ u' : ℚ, u = u' → obj I y ≤ (1 + δ) * u'
    ∨ ∃ l' : ℚ, l = l' ∧ obj I y ≤ (1 + δ) * l'

/-- A point of that value, and no point exceeds it by more than the factor `1 + δ`. -/
def NearBy (δ : ℚ) (Sub : List ℕ → Vec → Prop) (I : Inst) (l : List ℕ) (v : ℚ) (x : Vec) : Prop :=
  (Sub l x ∧ obj I x = v) ∧ ∀ y, InX I y → SatAll I l y → obj I y ≤ (1 + δ) * v

/-- Points that `is_feasible` accepts. -/
def Accepted (I : Inst) (x : Vec) : Prop := ((violBy I (1 / 10 ^ 6) x).card : ℚ) ≤ I.eps * I.N

/-- What the induction over a run needs to know about the answers of the solver: subset costs up to
the factor `1 + δ`; points of a subset problem are `Sub`, points of a partitioned problem are `Pt`, and
points whose objective may become the lower bound are `Good`.  Big-M formulations are used only if
`big`. -/
structure NearContract (δ : ℚ) (Good : Vec → Prop) (Sub : List ℕ → Vec → Prop)
    (Pt : List (List ℕ) → Vec → Prop) (big : Prop) (env : Env) (I : Inst) : Prop where
  equi : Equi I
  eps : 0 ≤ I.eps
  tolOk : TolOk I
  ab : NonnegAb I
  c : NonnegC I
  m : 0 < I.m
  n : 0 < I.n
  delta : 0 ≤ δ
  sub : ∀ t k l, (∀ s ∈ l, s < I.N) → ∃ r, subsetCost I (env.sub t k) l = .ok r
  near : ∀ t k l v x, subsetCost I (env.sub t k) l = .ok (v, x) → NearBy δ Sub I l v x
  good : ∀ x, Good x → -(10 ^ 6) ≤ obj I x ∧ (δ = 0 → 0 ≤ obj I x)
  cand : ∀ t k l v x, subsetCost I (env.sub t k) l = .ok (v, x) → Accepted I x → Good x
  ccBound : ∀ t (g : GModel), g.Bounded → ∀ ρ, g.Feas ρ →
    if g.maximize then g.obj.eval ρ ≤ (env.cc t g).objBnd else (env.cc t g).objBnd ≤ g.obj.eval ρ
  ccPoint : ∀ t P D M zs prune gap g ρ, IsPartition I.N P → loadPartition I P.length P = .ok D →
    (∀ Ms, M = some Ms → SameSolutions (partCI I D) Ms ∧ big) → (∀ c ∈ zs, c < P.length) →
    (∀ c ∈ prune, c < P.length) → buildCCLP (partCI I D) M zs prune gap = .ok g →
    (env.cc t g).sol = some ρ →
    Pt P (fun j => ρ (.x j)) ∧ obj I (fun j => ρ (.x j)) = (env.cc t g).objVal
  ptExact : δ = 0 → ∀ P x, Pt P x → PartFeas I P x
  first : ∀ P c x, P.length = kmax I + 1 → c < P.length → Sub (P.getD c []) x → Pt P x
  lbInf : ∀ t (g : GModel), (env.lb t g).status = 3 → ∀ ρ, ¬ g.Feas ρ
  lbPoint : ∀ t (d : Deter) l cuts ρ, DetInv (instCI I) d l cuts → (env.lb t d.g).sol = some ρ →
    Sub l (fun j => ρ (.x j)) ∧ obj I (fun j => ρ (.x j)) = (env.lb t d.g).objVal
  lbGood : ∀ (argsort : Argsort) index l x, index.length = I.N →
    selectedScenarios argsort I index = .ok (some l) → Sub l x → Good x
  acc : ∀ t, Splitter I (fun _ _ => True) (env.acc t)

/-- Belotti's big-Ms need the exact bounds. -/
def BigMOk (δ : ℚ) (big : Prop) (env : Env) (cfg : Cfg) : Prop :=
  cfg.useBigM = true → big ∧ (cfg.bigMMethod = "belotti" →
    δ = 0 ∧ 0 ≤ cfg.gap ∧ ∀ t g, GResult.Answers g (env.big t g))

/-- The lower bound is not above the upper bound. -/
def NoCross (s : St) : Prop := ∀ u l : ℚ, s.vUB = u → s.vLB = l → l ≤ u

theorem one_add_nonneg (hδ : 0 ≤ δ) : (0 : ℚ) ≤ 1 + δ := by linarith

theorem Covered.mono (hδ : 0 ≤ δ) {u : WithTop ℚ} {l l' : WithBot ℚ} {y : Vec} (h : Covered δ I u l y)
    (hl : l ≤ l') : Covered δ I u l' y := by
  intro u' hu
  rcases h u' hu with h1 | ⟨v, rfl, h1⟩
  · exact .inl h1
  · cases l' with
    | bot => simp at hl
    | coe w => exact .inr ⟨w, rfl, h1.trans (by
        have := WithBot.coe_le_coe.1 hl
        exact mul_le_mul_of_nonneg_left this (one_add_nonneg hδ))⟩

theorem covered_top {l : WithBot ℚ} {y : Vec} : Covered δ I ⊤ l y := by rintro u' ⟨⟩

theorem covered_near {u : ℚ} {l : WithBot ℚ} {y : Vec} (h : obj I y ≤ (1 + δ) * u) :
    Covered δ I (u : WithTop ℚ) l y := fun u' hu => by
  rw [← WithTop.coe_injective hu]
  exact .inl h

/-- The subset costs are near the optima. -/
def NearCosts (δ : ℚ) (Sub : List ℕ → Vec → Prop) (I : Inst)
    (P : List (List ℕ)) (costs : List ℚ) (sols : List Vec) : Prop :=
  costs.length = P.length ∧ sols.length = P.length
    ∧ ∀ c < P.length, NearBy δ Sub I (P.getD c []) (costs.getD c 0) (sols.getD c fun _ => 0)

theorem aligned_near (hC : NearContract δ Good Sub Pt big env I) {P : List (List ℕ)} {costs : List ℚ}
    {sols : List Vec} (h : Aligned env I P costs sols) : NearCosts δ Sub I P costs sols := by
  refine ⟨h.lenC, h.lenS, fun c hc => ?_⟩
  obtain ⟨t, k, h4⟩ := h.comp c hc
  exact hC.near _ _ _ _ _ h4

theorem subErr_near (hC : NearContract δ Good Sub Pt big env I) {e : PyErr} (h : SubErr env I e) :
    False := by
  obtain ⟨t, k, p, -, h2, h3⟩ := h
  obtain ⟨r, hr⟩ := hC.sub t k p h2
  rw [hr] at h3
  cases h3

theorem computed_near (hC : NearContract δ Good Sub Pt big env I) {p : List ℕ} {v : ℚ} {x : Vec}
    (h : Computed env I p v x) : Accepted I x → Good x := by
  obtain ⟨t, k, h⟩ := h
  exact hC.cand t k p v x h

/-! ## The bracket -/

/-- `Bracket` up to the gap. -/
structure GB (δ : ℚ) (Good : Vec → Prop) (I : Inst) (s : St) : Prop where
  ub : ∀ y, Feas I y → Covered δ I s.vUB s.vLB y
  lb : ∀ v : ℚ, s.vLB = v → ∃ x, s.xLB = some x ∧ Good x ∧ obj I x = v
  trace : ∀ p ∈ s.trace, (∀ y, Feas I y → Covered δ I p.1 p.2 y)
    ∧ ∀ v : ℚ, p.2 = v → ∃ x, Good x ∧ obj I x = v
  last : (s.vUB, s.vLB) ∈ s.trace

theorem GB.congr {s s' : St} (h : GB δ Good I s) (hc : bnds s' = bnds s) : GB δ Good I s' := by
  simp only [bnds, Prod.mk.injEq] at hc
  obtain ⟨h1, h2, h3, h4⟩ := hc
  exact ⟨by rw [h1, h2]; exact h.ub, by rw [h2, h3]; exact h.lb, by rw [h4]; exact h.trace,
    by rw [h1, h2, h4]; exact h.last⟩

/-- A new lower bound. -/
theorem GB.newLB (hδ : 0 ≤ δ) {s : St} (h : GB δ Good I s) {x : Vec} {v : ℚ} (hx : Good x)
    (hv : obj I x = v) (hl : s.vLB ≤ (v : WithBot ℚ)) (b : Bool) :
    GB δ Good I { s with xLB := some x, vLB := (v : WithBot ℚ), vLBNumpy := b
                         trace := s.trace ++ [(s.vUB, (v : WithBot ℚ))] } := by
  have hub : ∀ y, Feas I y → Covered δ I s.vUB (v : WithBot ℚ) y := fun y hy => (h.ub y hy).mono hδ hl
  refine ⟨hub, fun w hw => ⟨x, rfl, hx, ?_⟩, fun p hp => ?_, by simp⟩
  · rw [hv]; exact WithBot.coe_injective hw
  · rcases List.mem_append.1 hp with hp | hp
    · exact h.trace p hp
    · rw [List.mem_singleton.1 hp]
      exact ⟨hub, fun w hw => ⟨x, hx, by rw [hv]; exact WithBot.coe_injective hw⟩⟩

/-- A new upper bound. -/
theorem GB.newUB {s : St} (h : GB δ Good I s) {u : ℚ}
    (hu : ∀ y, Feas I y → Covered δ I (u : WithTop ℚ) s.vLB y) (xUB : Option Vec) :
    GB δ Good I { s with xUB, vUB := (u : WithTop ℚ), vUBNumpy := false
                         trace := s.trace ++ [((u : WithTop ℚ), s.vLB)] } := by
  refine ⟨hu, h.lb, fun p hp => ?_, by simp⟩
  rcases List.mem_append.1 hp with hp | hp
  · exact h.trace p hp
  · rw [List.mem_singleton.1 hp]
    refine ⟨hu, fun w hw => ?_⟩
    obtain ⟨x, -, h1, h2⟩ := h.lb w hw
    exact ⟨x, h1, h2⟩

/-- The lower bound only grows, and nothing else changes. -/
def GImproved (δ : ℚ) (Good : Vec → Prop) (I : Inst) (s s' : St) : Prop :=
  ∃ (x : Option Vec) (v : WithBot ℚ) (b : Bool) (t : List (WithTop ℚ × WithBot ℚ)),
    s.vLB ≤ v ∧ s' = { s with xLB := x, vLB := v, vLBNumpy := b, trace := t } ∧ GB δ Good I s'
      ∧ (NoCross s → NoCross s')

theorem wp_improve_gap (hC : NearContract δ Good Sub Pt big env I) {cands : List Vec} {s : St} (h : GB δ Good I s)
    (hc : ∀ x ∈ cands, Accepted I x → Good x) {E : PyErr → St → Prop} :
    wp (improve env I cands) (fun _ s' => GImproved δ Good I s s') E s := by
  refine wp_improve (fun _ => ⟨s.xLB, s.vLB, s.vLBNumpy, s.trace, le_rfl, rfl, h, id⟩)
    fun x v hx => ?_
  obtain ⟨h1, h2, h3, -⟩ := (C19_best_incumbent env.norm env.argsort I cands s.vUB s.vLB).1 x v hx
  have hle : s.vLB ≤ (v : WithBot ℚ) := by
    cases hl : s.vLB with
    | bot => exact bot_le
    | coe l =>
      have := h3.2.2 l hl
      rw [h2]
      exact WithBot.coe_le_coe.2 (by linarith [show (0 : ℚ) < 1 / 10 ^ 8 by norm_num])
  refine ⟨some x, v, true, _, hle, rfl,
    h.newLB hC.delta (hc x h1 h3.1) h2.symm hle true, fun _ u l hu hl => ?_⟩
  have hu' : s.vUB = (u : WithTop ℚ) := hu
  have := h3.2.1
  rw [hu'] at this
  rw [← WithBot.coe_injective hl, h2]
  exact WithTop.coe_le_coe.1 this

/-! ## The invariant -/

/-- The invariant of the main loop. -/
structure GInv (δ : ℚ) (Good : Vec → Prop) (env : Env) (I : Inst) (s : St) : Prop where
  shape : SShape env I s
  size : kmax I + 1 ≤ s.partition.length
  br : GB δ Good I s
  ub : ∀ y, PartFeas I s.partition y → Covered δ I s.vUB s.vLB y
  det : ∃ cuts, DetInv (instCI I) s.lb.deter s.lb.scenarios cuts
    ∧ ∀ q ∈ cuts, ((q : ℚ) : WithBot ℚ) ≤ s.vLB
  counter : s.lb.counter.length = I.N
  mem : SplitHistory env.norm I s.memory
  zlen : ∀ z, s.zUB = some z → z.length ≤ s.partition.length

theorem GInv.congr {s s' : St} (h : GInv δ Good env I s) (hk : key s' = key s) : GInv δ Good env I s' := by
  simp only [key, bnds, Prod.mk.injEq] at hk
  obtain ⟨⟨a1, a2, a3, a4, a5⟩, a6, ⟨b1, b2, b3, b4⟩, a7, a8, a9, a10⟩ := hk
  refine ⟨⟨?_, ?_, ?_, ?_⟩, ?_, h.br.congr ?_, ?_, ?_, ?_, ?_, ?_⟩
  · rw [a1]; exact h.shape.part
  · rw [a1, a2]; exact h.shape.nb
  · rw [a1, a3]; exact h.shape.load
  · rw [a1, a4, a5]; exact h.shape.aligned
  · rw [a1]; exact h.size
  · simp only [bnds, Prod.mk.injEq]; exact ⟨b1, b2, b3, b4⟩
  · rw [a1, b1, b2]; exact h.ub
  · rw [a7, b2]; exact h.det
  · rw [a7]; exact h.counter
  · rw [a8]; exact h.mem
  · rw [a9, a1]; exact h.zlen

theorem GInv.lower (hδ : 0 ≤ δ) {s s' : St} (h : GInv δ Good env I s)
    (hi : ∃ (x : Option Vec) (v : WithBot ℚ) (b : Bool) (t : List (WithTop ℚ × WithBot ℚ)),
      s.vLB ≤ v ∧ s' = { s with xLB := x, vLB := v, vLBNumpy := b, trace := t }
        ∧ GB δ Good I s') : GInv δ Good env I s' := by
  obtain ⟨x, v, b, t, h1, rfl, h3⟩ := hi
  obtain ⟨cuts, d1, d2⟩ := h.det
  exact ⟨⟨h.shape.1, h.shape.2, h.shape.3, h.shape.4⟩, h.size, h3,
    fun y hy => (h.ub y hy).mono hδ h1, ⟨cuts, d1, fun q hq => (d2 q hq).trans h1⟩, h.counter, h.mem,
    h.zlen⟩

theorem GInv.improved (hδ : 0 ≤ δ) {s s' : St} (h : GInv δ Good env I s)
    (hi : GImproved δ Good I s s') : GInv δ Good env I s' :=
  h.lower hδ (by
    obtain ⟨x, v, b, t, h1, h2, h3, -⟩ := hi
    exact ⟨x, v, b, t, h1, h2, h3⟩)

/-- With exact subset costs and bounds that do not cross, the upper bound covers. -/
theorem Covered.le_ub {s : St} {y : Vec} (h : Covered δ I s.vUB s.vLB y) (hd : δ = 0)
    (hX : NoCross s) {u : ℚ} (hu : s.vUB = (u : WithTop ℚ)) : obj I y ≤ u := by
  subst hd
  rcases h u hu with h1 | ⟨l, hl, h1⟩
  · linarith
  · have := hX u l hu hl
    linarith

/-! ## Big-Ms -/

theorem wp_bigM_gap (hC : NearContract δ Good Sub Pt big env I)
    (hB : BigMOk δ big env cfg) (s : St) (h : GInv δ Good env I s)
    (hX : δ = 0 → 0 ≤ cfg.gap → NoCross s) :
    wp (bigMStep env cfg I)
      (fun M s' => key s' = key s ∧ ∀ Ms, M = some Ms → SameSolutions (partCI I s.part) Ms ∧ big)
      (fun _ s' => key s' = key s) s := by
  unfold bigMStep
  rw [wp_bind, wp_get, wp_ite]
  refine ⟨fun hc => ?_, fun _ => ⟨rfl, by rintro _ ⟨⟩⟩⟩
  rw [wp_bind, wp_nextTick, wp_bind, wp_lift]
  have hK : kmax I + 1 < s.partition.length := by
    rw [← minSize_eq hC.eps, ← h.shape.nb]; exact hc.2
  refine ⟨fun Ms hMs => ⟨rfl, ?_⟩, fun e _ => rfl⟩
  rintro _ ⟨⟩
  refine ⟨?_, (hB hc.1).1⟩
  have hMs' : updateBigM env.argsort env.srt (env.big s.tick) (partCI I s.part) true
      s.nbSubsets s.vUB cfg.bigMMethod (some I) (some s.partition) = .ok Ms := hMs
  have hnb := nbScen_part h.shape.part h.shape.load
  have hnn := nonnegCI_part hC.ab hC.c h.shape.part h.shape.load
  rw [h.shape.nb] at hMs'
  unfold updateBigM at hMs'
  by_cases m1 : cfg.bigMMethod = "belotti"
  · rw [if_pos m1] at hMs'
    obtain ⟨hd, hgap, hbig⟩ := (hB hc.1).2 m1
    cases hu : s.vUB with
    | top => rw [hu] at hMs'; cases hMs'
    | coe u =>
      obtain ⟨Ms', b1, b2⟩ := C48_belotti_equivalent env.argsort (env.big s.tick)
        (hbig s.tick) (partCI I s.part) hnn u (fun x z hx hz =>
          (h.ub x ⟨hx, zOk_partFeas hC.equi hC.eps h.shape.part h.shape.load hz⟩).le_ub hd
            (hX hd hgap) hu)
      rw [hnb] at b1
      have hcast : (match ((u : WithTop ℚ) : Option ℚ) with
        | some v => runBelotti env.argsort (env.big s.tick) (partCI I s.part) s.partition.length v
        | none => .error (.assertion "BigMFinder.py:228")) = .ok Ms' := b1
      rw [hu] at hMs'
      have := hcast.symm.trans hMs'
      cases this
      exact b2
  rw [if_neg m1] at hMs'
  by_cases m2 : cfg.bigMMethod = "song"
  · obtain ⟨Ms', b1, b2⟩ := (C48_song_equivalent env.argsort env.srt (env.big s.tick) I s.vUB
      hC.equi hC.eps hC.m hC.n hC.ab hC.c).2 s.partition h.shape.part hK s.part h.shape.load
    unfold updateBigM at b1
    rw [if_neg (by decide)] at b1
    rw [m2] at hMs'
    rw [b1] at hMs'
    cases hMs'
    exact b2
  · rw [if_neg m2] at hMs'
    by_cases m3 : cfg.bigMMethod = "naive"
    · rw [if_pos m3] at hMs'
      have := C48_naive_equivalent _ hnn
      rw [hnb] at this
      cases hMs'
      exact this
    · rw [if_neg m3] at hMs'
      cases hMs'

/-! ## The partitioned problem -/

/-- What the upper bound knows about the points of the partitioned problem. -/
structure GSpec (δ : ℚ) (Pt : List (List ℕ) → Vec → Prop) (env : Env) (I : Inst)
    (P : List (List ℕ)) (vLB : WithBot ℚ) (out : UBOut) : Prop where
  point : Pt P out.x
  obj : obj I out.x = out.vObj
  bound : ∀ y, PartFeas I P y → Covered δ I (out.vBnd : WithTop ℚ) vLB y
  z : out.z.length = P.length
  tight : Tight env → out.vObj = out.vBnd

theorem prune_lt {costs : List ℚ} {vLB : WithBot ℚ} {K : ℕ} (h : costs.length = K) :
    ∀ c ∈ pruneIndices costs vLB, c < K := by
  intro c hcm
  unfold pruneIndices at hcm
  cases vLB with
  | bot => simp at hcm
  | coe v =>
    have := List.mem_range.1 (List.mem_filter.1 hcm).1
    rwa [h] at this

/-- Pruning with costs near the optima only removes points covered by the lower bound. -/
theorem prune_near (hδ : 0 ≤ δ) (P : List (List ℕ)) (hne : ∀ p ∈ P, p ≠ []) (D : PartData)
    (hD : loadPartition I P.length P = .ok D) (costs : List ℚ) (sols : List Vec)
    (hc : NearCosts δ Sub I P costs sols) (vLB : WithBot ℚ) (bigM : Option (List (List ℚ)))
    (hM : ∀ Ms, bigM = some Ms → SameSolutions (partCI I D) Ms) (zStart : List ℕ)
    (hz : ∀ s ∈ zStart, s < P.length) (gap : ℚ) :
    ∃ g g', buildCCLP (partCI I D) bigM zStart [] gap = .ok g
      ∧ buildCCLP (partCI I D) bigM zStart (pruneIndices costs vLB) gap = .ok g'
      ∧ g'.obj = g.obj ∧ g'.maximize = g.maximize
      ∧ (∀ ρ, g'.Feas ρ → g.Feas ρ)
      ∧ ∀ ρ, g.Feas ρ → (∀ v : ℚ, vLB = v → (1 + δ) * v < obj I fun j => ρ (.x j)) →
          g'.Feas ρ := by
  have hnb : (partCI I D).nbScen = P.length := by
    rw [loadPartition_ok I P hne] at hD; cases hD; rfl
  have hpr : ∀ c ∈ pruneIndices costs vLB, c < P.length := prune_lt hc.1
  have hind : ∃ g g', buildCCLP (partCI I D) none zStart [] gap = .ok g
      ∧ buildCCLP (partCI I D) none zStart (pruneIndices costs vLB) gap = .ok g'
      ∧ g'.obj = g.obj ∧ g'.maximize = g.maximize
      ∧ (∀ ρ, g'.Feas ρ → g.Feas ρ)
      ∧ ∀ ρ, g.Feas ρ → (∀ v : ℚ, vLB = v → (1 + δ) * v < obj I fun j => ρ (.x j)) →
          g'.Feas ρ := by
    obtain ⟨g, hg, ho, hx, -, hf⟩ := buildCCLP_ok (partCI I D) none (by rintro _ ⟨⟩) zStart [] gap
      (by rw [hnb]; exact hz) (by simp)
    obtain ⟨g', hg', ho', hx', -, hf'⟩ := buildCCLP_ok (partCI I D) none (by rintro _ ⟨⟩) zStart
      (pruneIndices costs vLB) gap (by rw [hnb]; exact hz) (by rw [hnb]; exact hpr)
    refine ⟨g, g', hg, hg', ho'.trans ho.symm, hx'.trans hx.symm, fun ρ h => ?_, fun ρ h hlt => ?_⟩
    · rw [hf'] at h; rw [hf]
      exact ⟨⟨h.1.1, h.1.2.1, h.1.2.2.1, by simp⟩, h.2⟩
    · rw [hf] at h; rw [hf']
      refine ⟨⟨h.1.1, h.1.2.1, h.1.2.2.1, fun c hcm => ?_⟩, h.2⟩
      have hcP := hpr c hcm
      rcases h.1.2.1 c (by rw [hnb]; exact hcP) with h0 | h1
      · exact h0
      · exfalso
        have hrows := h.2 c (by rw [hnb]; exact hcP) h1
        rw [(C10_subset_rows I P hne D hD c hcP).2] at hrows
        have hle := (hc.2.2 c hcP).2 _ h.1.1 hrows
        unfold pruneIndices at hcm
        cases vLB with
        | bot => simp at hcm
        | coe v =>
          have h3 := (List.mem_filter.1 hcm).2
          simp only [decide_eq_true_eq] at h3
          have h4 := hlt v rfl
          have h5 : costs.getD c 0 ≤ v := by
            linarith [show (0 : ℚ) < 1 / 10 ^ 3 by norm_num]
          exact absurd (h4.trans_le hle) (not_lt.2
            (mul_le_mul_of_nonneg_left h5 (one_add_nonneg hδ)))
  cases bigM with
  | none => exact hind
  | some Ms =>
    obtain ⟨g, g', hg, hg', ho, -, h1, h2⟩ := hind
    obtain ⟨k, k1, hk, hk1, ko, kx, -, hkf⟩ := hM Ms rfl zStart [] gap (by rw [hnb]; exact hz)
      (by simp)
    obtain ⟨k', k1', hk', hk1', ko', kx', -, hkf'⟩ := hM Ms rfl zStart (pruneIndices costs vLB) gap
      (by rw [hnb]; exact hz) (by rw [hnb]; exact hpr)
    rw [hg] at hk1; cases hk1
    rw [hg'] at hk1'; cases hk1'
    refine ⟨k, k', hk, hk', by rw [ko, ko', ho], kx'.trans kx.symm, fun ρ h => ?_, fun ρ h hlt => ?_⟩
    · exact (hkf ρ).2 (h1 ρ ((hkf' ρ).1 h))
    · exact (hkf' ρ).2 (h2 ρ ((hkf ρ).1 h) hlt)

/-- The partitioned problem with pruning. -/
theorem cclp_gap (hC : NearContract δ Good Sub Pt big env I) {P : List (List ℕ)} (hP : IsPartition I.N P)
    {D : PartData} (hD : loadPartition I P.length P = .ok D) {costs : List ℚ} {sols : List Vec}
    (hc : NearCosts δ Sub I P costs sols) {vLB : WithBot ℚ} {bigM : Option (List (List ℚ))}
    (hM : ∀ Ms, bigM = some Ms → SameSolutions (partCI I D) Ms ∧ big) {zs : List ℕ}
    (hz : ∀ c ∈ zs, c < P.length) {gap limit build : ℚ} {t : ℕ} {out : UBOut}
    (hout : solveCclp (partCI I D) bigM zs (pruneIndices costs vLB) gap limit build (env.cc t)
        = .ok out) : GSpec δ Pt env I P vLB out := by
  have hM' := fun Ms h => (hM Ms h).1
  obtain ⟨g, g', h1, h2, h3, h3m, h4, h5⟩ := prune_near hC.delta P hP.2 D hD costs sols hc vLB bigM
    hM' zs hz gap
  obtain ⟨o1, o2, p1, p2⟩ := cclp_points hC.equi hC.eps hP hD hM' hz h1
  have hmax : g'.maximize = true := h3m.trans o2
  have hev : ∀ ρ, g'.obj.eval ρ = obj I fun j => ρ (.x j) := fun ρ => by
    rw [h3, o1, eval_objExpr]; rfl
  have hbd : g'.Bounded := by
    refine ⟨∑ j ∈ range I.n, I.c j, fun ρ hρ => ?_⟩
    rw [if_pos hmax, hev]
    unfold Spec.obj dot
    refine Finset.sum_le_sum fun j hj => ?_
    have hj := Finset.mem_range.1 hj
    have := inX_box (p1 ρ (h4 ρ hρ)).1 j hj
    exact mul_le_of_le_one_right (hC.c j hj) this.2
  have hbound : ∀ y, PartFeas I P y → Covered δ I ((env.cc t g').objBnd : WithTop ℚ) vLB y := by
    intro y hy
    by_cases hv : ∀ v : ℚ, vLB = v → (1 + δ) * v < obj I y
    · have := hC.ccBound t g' hbd _ (h5 _ (p2 y hy) hv)
      rw [if_pos hmax, hev] at this
      refine covered_near (le_trans this ?_)
      have h0 : 0 ≤ (env.cc t g').objBnd := (obj_nonneg hC.c hy.1).trans this
      linarith [mul_nonneg hC.delta h0]
    · push Not at hv
      obtain ⟨v, hv1, hv2⟩ := hv
      exact fun _ _ => .inr ⟨v, hv1, hv2⟩
  have hrun : solveCclp (partCI I D) bigM zs (pruneIndices costs vLB) gap limit build (env.cc t)
      = (setTimeLimit (limit - build) >>= fun _ => do
      let r ← optimize (env.cc t g')
      let ρ ← getSol r
      let v ← getObjVal r
      pure { x := fun j => ρ (.x j), z := (List.range (partCI I D).nbScen).map fun s => ρ (.z s)
             vObj := v, vBnd := r.objBnd }) := by
    unfold solveCclp
    rw [h2]
    rfl
  rw [hrun] at hout
  by_cases h0 : 0 ≤ limit - build
  swap
  · rw [setTimeLimit, if_neg h0] at hout; cases hout
  rw [setTimeLimit, if_pos h0] at hout
  replace hout : (do
    let r ← optimize (env.cc t g')
    let ρ ← getSol r
    let v ← getObjVal r
    pure { x := fun j => ρ (.x j), z := (List.range (partCI I D).nbScen).map fun s => ρ (.z s)
           vObj := v, vBnd := r.objBnd } : PyM UBOut) = .ok out := hout
  unfold optimize at hout
  split at hout
  · cases hout
  · simp only [bind, Except.bind] at hout
    unfold getSol getObjVal at hout
    cases hs : (env.cc t g').sol with
    | none => rw [hs] at hout; cases hout
    | some ρ =>
      rw [hs] at hout
      cases hout
      obtain ⟨f1, f2⟩ := hC.ccPoint t P D bigM zs _ gap g' ρ hP hD hM hz (prune_lt hc.1) h2 hs
      exact ⟨f1, f2, hbound, by simp [nbScen_part hP hD],
        fun htight => htight t g' ρ hs⟩

/-- The first iteration. -/
theorem first_gap (hC : NearContract δ Good Sub Pt big env I) {P : List (List ℕ)} {costs : List ℚ} {sols : List Vec}
    (hc : NearCosts δ Sub I P costs sols) (hsize : P.length = kmax I + 1) {vLB : WithBot ℚ} {R : UBOut}
    (h : firstIterationBound costs sols = .ok R) : GSpec δ Pt env I P vLB R := by
  obtain ⟨h1, h2, h3⟩ := hc
  obtain ⟨c, hcl, hmax, hR⟩ := firstIterationBound_ok (sols := sols) (costs := costs) (by
    intro h0; rw [h0] at h1; simp at h1; omega) (by omega)
  rw [hR] at h
  cases h
  have hcP : c < P.length := by omega
  obtain ⟨⟨hx1, hx3⟩, _⟩ := h3 c hcP
  refine ⟨hC.first P c _ hsize hcP hx1, hx3, fun y hy => covered_near ?_, by simp [h1], fun _ => rfl⟩
  · have : ∃ p ∈ P, SatAll I p y := by
      by_contra hno
      push Not at hno
      have : nbViolParts I P y = P.length := by
        unfold nbViolParts
        rw [List.countP_eq_length]
        intro p hp
        simpa using hno p hp
      have := hy.2
      omega
    obtain ⟨p, hp, hs⟩ := this
    obtain ⟨i, hi, rfl⟩ := List.mem_iff_getElem.1 hp
    have h4 := (h3 i hi).2 y hy.1 (by rw [List.getD_eq_getElem _ _ hi]; exact hs)
    have h5 := hmax (costs.getD i 0) (by
      rw [List.getD_eq_getElem _ _ (by omega : i < costs.length)]
      exact List.getElem_mem _)
    exact h4.trans (mul_le_mul_of_nonneg_left h5 (one_add_nonneg hC.delta))

/-! ## Upper bound -/

theorem wp_computeUB_gap (hC : NearContract δ Good Sub Pt big env I) (s : St) (h : GInv δ Good env I s)
    {M : Option (List (List ℚ))}
    (hM : ∀ Ms, M = some Ms → SameSolutions (partCI I s.part) Ms ∧ big) :
    wp (computeUB env cfg I M)
      (fun out s' => key s' = key s ∧ GSpec δ Pt env I s.partition s.vLB out)
      (fun _ s' => key s' = key s) s := by
  have hcosts := aligned_near hC h.shape.aligned
  unfold computeUB
  rw [wp_bind, wp_get, wp_ite, h.shape.nb, minSize_eq hC.eps]
  refine ⟨fun hsz => ?_, fun hsz => ?_⟩
  · rw [wp_lift]
    exact ⟨fun R hR => ⟨rfl, first_gap hC hcosts hsz hR⟩, fun _ _ => rfl⟩
  · unfold partitionBound
    rw [wp_bind, wp_availableTime, wp_bind, wp_get, wp_bind, wp_lift]
    refine ⟨fun zs hzs => ?_, fun e he => rfl⟩
    have hz : ∀ c ∈ zs, c < s.partition.length := by
      intro c hc
      have hzs' : getZStart s.zUB s.deleted = .ok zs := hzs
      unfold getZStart at hzs'
      cases hzu : s.zUB with
      | none => rw [hzu] at hzs'; cases hzs'
      | some z =>
        rw [hzu] at hzs'
        cases hzs'
        have h1 := zStartLoop_lt s.deleted z 0 0 c hc
        have h2 := h.zlen z hzu
        omega
    rw [wp_bind, wp_nextTick, wp_bind, wp_buildTime, wp_bind, wp_lift]
    refine ⟨fun out hout => ?_, fun e he => rfl⟩
    have hsp := cclp_gap hC h.shape.part h.shape.load hcosts hM hz hout
    rw [wp_bind, wp_lift]
    exact ⟨fun _ _ => ⟨rfl, hsp⟩, fun e he => rfl⟩

/-- What the upper bound leaves behind. -/
def GUBPost (δ : ℚ) (Good : Vec → Prop) (Pt : List (List ℕ) → Vec → Prop) (env : Env) (I : Inst)
    (s : St) (r : Option Vec × Bool) (s' : St) : Prop :=
  GInv δ Good env I s' ∧ s'.partition = s.partition ∧ s'.vLB = s.vLB
  ∧ ((key s' = key s ∧ r = (s.xUB, false))
    ∨ ∃ out, GSpec δ Pt env I s.partition s.vLB out
      ∧ r = (some out.x, (checkFeasibility env.norm I out.x).feasible)
      ∧ s'.feas = some (checkFeasibility env.norm I out.x)
      ∧ (δ = 0 → NoCross s → Tight env → s'.vUB = (out.vObj : WithTop ℚ)
          ∧ s'.xUB = some out.x))

theorem wp_upperBound_gap (hC : NearContract δ Good Sub Pt big env I) (s : St) (h : GInv δ Good env I s)
    {M : Option (List (List ℚ))}
    (hM : ∀ Ms, M = some Ms → SameSolutions (partCI I s.part) Ms ∧ big) :
    wp (upperBound env cfg I M) (GUBPost δ Good Pt env I s) (fun _ s' => GB δ Good I s') s := by
  unfold upperBound
  rw [wp_bind]
  refine wp_mono (wp_computeUB_gap hC s h hM) (fun out s1 h1 => ?_)
    fun e s' h' => h.br.congr (key_bnds h')
  obtain ⟨k1, k3⟩ := h1
  have hl1 : GInv δ Good env I s1 := h.congr k1
  have hP1 : s1.partition = s.partition := key_part k1
  have hv1 : s1.vLB = s.vLB := by
    have := key_bnds k1
    simp only [bnds, Prod.mk.injEq] at this
    exact this.2.1
  rw [wp_bind, wp_availableTime, wp_ite]
  refine ⟨fun ht => ?_, fun _ => ?_⟩
  · rw [wp_bind, wp_get]
    exact ⟨hl1.congr rfl, hP1, hv1, .inl ⟨k1, by rw [← key_xUB k1]⟩⟩
  · have hshape := hl1.shape
    have hbound1 : ∀ y, PartFeas I s1.partition y → Covered δ I (out.vBnd : WithTop ℚ) s1.vLB y := by
      rw [hP1, hv1]; exact k3.bound
    have hb' : ∀ y, Feas I y → Covered δ I (out.vBnd : WithTop ℚ) s1.vLB y := fun y hy =>
      hbound1 y (feas_partFeas hC.equi hC.eps hshape.part hy)
    have hz1 : out.z.length ≤ s1.partition.length := by rw [hP1, k3.z]
    have hle1 : δ = 0 → NoCross s → leTol out.vObj s1.vUB = true := by
      intro hd hX
      rw [← k3.obj, key_vUB k1]
      refine leTol_of_le ?_
      cases hu : s.vUB with
      | top => exact le_top
      | coe u =>
        exact WithTop.coe_le_coe.2 ((h.ub _ (hC.ptExact hd _ _ k3.point)).le_ub hd hX hu)
    have hcnt : (s1.lb.saveFeasible (getFeasibleScenarios
        (checkFeasibility env.norm I out.x))).counter.length = I.N := by
      unfold LBState.saveFeasible
      simp only [List.length_zipWith]
      rw [hl1.counter, (C02_check_feasibility_record env.norm I out.x).2.2.2.1, min_self]
    unfold storeUB updateUB currentGap storeInfo
    wp_simp
    refine ⟨fun hb => ?_, fun hb => ?_⟩
    · have hl : ∀ xUB : Option Vec, GInv δ Good env I { s1 with
          reads := s1.reads + 1
          lastRem := remaining env.clock cfg.timeLimit (s1.reads + 1)
          feas := some (checkFeasibility env.norm I out.x), zUB := some out.z
          xUB, vUB := (out.vBnd : WithTop ℚ), vUBNumpy := false
          trace := s1.trace ++ [((out.vBnd : WithTop ℚ), s1.vLB)]
          lb := s1.lb.saveFeasible (getFeasibleScenarios (checkFeasibility env.norm I out.x)) } :=
        fun xUB => ⟨⟨hshape.1, hshape.2, hshape.3, hshape.4⟩, hl1.size,
          (hl1.br.newUB hb' xUB).congr rfl, hbound1, hl1.det, hcnt, hl1.mem,
          fun z hz => by cases hz; exact hz1⟩
      exact ⟨fun g _ => ⟨(hl _).congr rfl, hP1, hv1, .inr ⟨out, k3, rfl, rfl, fun hd hX ht =>
          ⟨by show (out.vBnd : WithTop ℚ) = _; rw [k3.tight ht], if_pos (hle1 hd hX)⟩⟩⟩,
        fun e he => (hl (if leTol out.vObj s1.vUB then some out.x else s1.xUB)).br.congr rfl⟩
    · have hl : GInv δ Good env I { s1 with
          reads := s1.reads + 1
          lastRem := remaining env.clock cfg.timeLimit (s1.reads + 1)
          feas := some (checkFeasibility env.norm I out.x), zUB := some out.z
          lb := s1.lb.saveFeasible (getFeasibleScenarios (checkFeasibility env.norm I out.x)) } :=
        ⟨⟨hshape.1, hshape.2, hshape.3, hshape.4⟩, hl1.size, hl1.br.congr rfl, hl1.ub, hl1.det,
          hcnt, hl1.mem, fun z hz => by cases hz; exact hz1⟩
      exact ⟨fun g _ => ⟨hl.congr rfl, hP1, hv1, .inr ⟨out, k3, rfl, rfl, fun hd hX ht =>
        absurd (by rw [← k3.tight ht]; exact hle1 hd hX) hb⟩⟩, fun e he => hl.br.congr rfl⟩

/-! ## Lower bound -/

/-- What an answer of the lower-bound problem means if its points are `Sub`. -/
theorem deterministicBound_near (hab : NonnegAb I) {solve : GModel → GResult}
    (hinf : ∀ g : GModel, (solve g).status = 3 → ∀ ρ, ¬ g.Feas ρ)
    (hpt : ∀ (d : Deter) l cuts ρ, DetInv (instCI I) d l cuts → (solve d.g).sol = some ρ →
      Sub l (fun j => ρ (.x j)) ∧ obj I (fun j => ρ (.x j)) = (solve d.g).objVal)
    {st0 : LBState} {vLB : WithBot ℚ}
    (hd : ∃ cuts, DetInv (instCI I) st0.deter st0.scenarios cuts
      ∧ ∀ q ∈ cuts, ((q : ℚ) : WithBot ℚ) ≤ vLB) (hcount : st0.counter.length = I.N)
    (hl : ∀ v : ℚ, vLB = v → -(10 ^ 6) ≤ v) {projection : String}
    {x : Option Vec} {st : LBState} {out : LBOut}
    (hok : deterministicBound env.norm env.argsort I projection solve st0 vLB x = .ok (st, out)) :
    st.counter.length = I.N
      ∧ (∃ cuts, DetInv (instCI I) st.deter st.scenarios cuts
        ∧ ∀ q ∈ cuts, ((q : ℚ) : WithBot ℚ) ≤ vLB)
      ∧ (vLB < (out.v : WithBot ℚ) → ∃ y, out.x = some y ∧ (∃ index, index.length = I.N
        ∧ selectedScenarios env.argsort I index = .ok (some st.scenarios) ∧ Sub st.scenarios y)
        ∧ obj I y = out.v) := by
  obtain ⟨cuts, hdet, hcuts⟩ := hd
  have hinv := deterministicBound_inv (norm := env.norm) (argsort := env.argsort)
    (projection := projection) (solve := solve) (vLB := vLB) (xUB := x) hdet
  have hkept : ∀ q ∈ cuts ++ keptCuts st0.prevVLB [vLB], ((q : ℚ) : WithBot ℚ) ≤ vLB := by
    intro q hq
    rcases List.mem_append.1 hq with hq | hq
    · exact hcuts q hq
    · cases hv : vLB with
      | bot => rw [hv] at hq; simp [keptCuts] at hq
      | coe v =>
        rw [hv] at hq
        have : q = v := by
          change q ∈ (if st0.prevVLB ≤ (v : WithBot ℚ) then [v] else []) ++ [] at hq
          split at hq
          · simpa using hq
          · simp at hq
        rw [this]
  have hvLB : vLB = ⊥ ∨ ∃ v : ℚ, vLB = v ∧ -(10 ^ 6) ≤ v := by
    cases hv : vLB with
    | bot => exact .inl rfl
    | coe v => exact .inr ⟨v, rfl, hl v hv⟩
  obtain ⟨⟨index, i1, i2⟩, -, i4, i5, i6⟩ := hinv.1 st out hok
  refine ⟨by rw [i4]; exact hcount, ⟨_, i5, hkept⟩, fun hlt => ?_⟩
  have hlen := length_index hcount i1
  unfold readDeter at i6
  split at i6
  · next h3 =>
    cases i6
    rcases hvLB with hv | ⟨v, hv, hv0⟩
    · -- no cut: the zero point is feasible
      exfalso
      refine hinf _ h3 (fun _ => 0) ((i5.feas _).2
        ⟨zero_inX I, fun s' hs' => ?_, fun q hq => ?_⟩)
      · have := ((C17_selection I env.argsort index hlen).1 _ i2).2.1 s' hs'
        exact zero_sat hab this
      · have := hkept q hq
        rw [hv] at this
        exact absurd this (by simp)
    · rw [hv] at hlt
      have := WithBot.coe_lt_coe.1 hlt
      norm_num at this hv0
      linarith
  · unfold getX getObjVal getSol at i6
    cases hs : (solve st.deter.g).sol with
    | none => rw [hs] at i6; cases i6
    | some ρ =>
      rw [hs] at i6
      cases i6
      obtain ⟨f1, f2⟩ := hpt _ _ _ ρ i5 hs
      exact ⟨_, rfl, ⟨index, hlen, i2, f1⟩, f2⟩

/-- What the lower bound leaves behind. -/
def GLBPost (δ : ℚ) (Good : Vec → Prop) (env : Env) (I : Inst) (s : St) (g : Gap) (s' : St) : Prop :=
  GInv δ Good env I s' ∧ s'.partition = s.partition ∧ s'.feas = s.feas
    ∧ ∃ b, computeGap s'.vUB s'.vLB b = .ok g

theorem wp_lowerBound_gap (hC : NearContract δ Good Sub Pt big env I) (s : St) (h : GInv δ Good env I s) (x : Option Vec) :
    wp (lowerBound env cfg I x) (GLBPost δ Good env I s) (fun _ s' => GB δ Good I s') s := by
  unfold lowerBound
  rw [wp_bind, wp_get, wp_bind, wp_nextTick, wp_bind, wp_lift]
  refine ⟨?_, fun e he => h.br.congr rfl⟩
  rintro ⟨st, out⟩ hrun
  obtain ⟨c1, ⟨cuts, c2, c3⟩, c4⟩ := deterministicBound_near hC.ab (hC.lbInf s.tick)
    (hC.lbPoint s.tick) h.det h.counter (fun v hv => by
      obtain ⟨y, -, hy, hv⟩ := h.br.lb v hv
      exact hv ▸ (hC.good y hy).1) hrun
  have hl : GInv δ Good env I { s with tick := s.tick + 1, lb := st } :=
    ⟨⟨h.shape.1, h.shape.2, h.shape.3, h.shape.4⟩, h.size, h.br.congr rfl, h.ub,
      ⟨cuts, c2, c3⟩, c1, h.mem, h.zlen⟩
  unfold storeLB currentGap storeInfo
  wp_simp
  refine ⟨fun hlt => ?_, fun _ => ?_⟩
  · obtain ⟨y, hy, ⟨index, hi1, hi2, hf⟩, hv⟩ := c4 hlt
    have hl' := hl.lower hC.delta (s' := { s with
        tick := s.tick + 1, lb := st, xLB := some y, vLB := (out.v : WithBot ℚ)
        vLBNumpy := false, trace := s.trace ++ [(s.vUB, (out.v : WithBot ℚ))] })
      ⟨some y, (out.v : WithBot ℚ), false, _, hlt.le, rfl,
        (h.br.newLB hC.delta (hC.lbGood _ _ _ y hi1 hi2 hf) hv hlt.le false).congr rfl⟩
    rw [← hy] at hl'
    exact ⟨fun g hg => ⟨hl'.congr rfl, rfl, rfl, _, hg⟩, fun e he => hl'.br.congr rfl⟩
  · exact ⟨fun g hg => ⟨hl.congr rfl, rfl, rfl, _, hg⟩, fun e he => hl.br.congr rfl⟩

/-! ## Split and merge -/

/-- A point of the refined partition is a point of the partition. -/
theorem partFeas_split {norm : Norm} {P : List (List ℕ)} {x : Vec} (hP : ToRefine I P x)
    {out : RefineOut} (hr : RefineCall norm I P x out) {y : Vec}
    (hy : PartFeas I out.partition y) : PartFeas I P y := by
  have hok := hr.ok hP
  refine ⟨hy.1, le_trans ?_ hy.2⟩
  obtain ⟨st, hst, -, hp, -⟩ := hok.inv
  rw [nbViolParts_eq, nbViolParts_eq, hp]
  exact hst.mono _

/-- A point of the merged partition satisfies a new subset or is a point of the partition before
the split. -/
theorem partFeas_merge {norm : Norm} {P : List (List ℕ)} {x x' : Vec} (hP : ToRefine I P x)
    {out : RefineOut} (hr : RefineCall norm I P x out) {m : MState} (hm : MergeCall norm I x' out m)
    {y : Vec} (hy : PartFeas I m.partition y) :
    (∃ c ∈ out.newSubsets, SatAll I (out.partition.getD c []) y) ∨ PartFeas I P y := by
  have hok := hr.ok hP
  obtain ⟨cs, hg⟩ := hm.group hok
  by_cases hsat : ∃ c ∈ out.newSubsets, SatAll I (out.partition.getD c []) y
  · exact .inl hsat
  · push Not at hsat
    refine .inr ⟨hy.1, le_trans ?_ hy.2⟩
    rw [nbViolParts_eq, nbViolParts_eq]
    refine group_mono hok hg fun c hcn => ?_
    have := hsat c hcn
    simp only [SatAll, not_forall] at this
    obtain ⟨s, hs, hv⟩ := this
    exact List.any_eq_true.2 ⟨s, hs, by simpa using hv⟩

/-- What the split leaves behind. -/
structure GSplit (δ : ℚ) (Good : Vec → Prop) (Sub : List ℕ → Vec → Prop) (env : Env) (I : Inst)
    (s : St) (r : RefineOut × List ℚ) (s' : St) : Prop where
  inv : GInv δ Good env I s'
  feas : s'.feas = s.feas
  vUB : s'.vUB = s.vUB
  vLB : s.vLB ≤ s'.vLB
  zUB : s'.zUB = s.zUB
  cross : NoCross s → NoCross s'
  part : s'.partition = r.1.partition
  len : r.2.length = r.1.newSubsets.length
  costs : ∀ c ∈ r.1.newSubsets, ∃ v ∈ r.2, ∃ xc, NearBy δ Sub I (r.1.partition.getD c []) v xc
  call : ∃ x, s.feas = some (checkFeasibility env.norm I x) ∧ ToRefine I s.partition x
    ∧ RefineCall env.norm I s.partition x r.1

theorem wp_split_gap (hC : NearContract δ Good Sub Pt big env I) (s : St) (h : GInv δ Good env I s) (hf : FeasInv env I s) :
    wp (split env cfg I rounds) (GSplit δ Good Sub env I s) (fun _ s' => GB δ Good I s') s := by
  refine wp_split h.shape.aligned.lenC h.shape.aligned.lenS (fun e he => h.br.congr rfl)
    (fun e s' _ _ he => absurd he (subErr_near hC)) fun out mem D costs sols hr hS hD hF => ?_
  obtain ⟨hmem, x, hx, hto, hcall⟩ := refineStep_inv hC.eps
    (.inr hC.acc) h.shape h.mem hf hr
  have hal := hF.aligned h.shape.aligned hS
  have hdet := aligned_near hC hal
  have hl : GInv δ Good env I
      { s with tick := s.tick + 1, partition := out.partition, nbSubsets := out.partition.length
               memory := mem, part := D, costs, sols } := by
    have hlen : s.partition.length ≤ out.partition.length := by rw [hS.len]; omega
    exact ⟨⟨hS.part, rfl, hD, hal⟩, h.size.trans hlen, h.br.congr rfl,
      fun y hy => h.ub y (partFeas_split hto hcall hy), h.det, h.counter, hmem,
      fun z hz => (h.zlen z hz).trans hlen⟩
  refine wp_mono (wp_improve_gap hC hl.br fun y hy => ?_) (fun _ s' hs' => ?_) fun _ _ h => h
  · obtain ⟨c, hc, rfl⟩ := List.mem_map.1 hy
    exact computed_near hC (hF.comp c hc)
  · have hl' := hl.improved hC.delta hs'
    obtain ⟨a, b, c, d, hle, rfl, -, hX⟩ := hs'
    exact ⟨hl', rfl, rfl, hle, rfl, fun h0 => hX h0, rfl, by simp, fun c hc => ⟨costs.getD c 0,
      List.mem_map.2 ⟨c, hc, rfl⟩, _, hdet.2.2 c (hS.lt c hc)⟩, x, hx, hto, hcall⟩

/-- What the merge leaves behind. -/
def GMerge (δ : ℚ) (Good : Vec → Prop) (env : Env) (I : Inst)
    (s1 s' : St) : Prop :=
  GInv δ Good env I s' ∧ s'.feas = s1.feas ∧ (NoCross s1 → NoCross s')

theorem wp_applyMerge_gap (hC : NearContract δ Good Sub Pt big env I) {s s1 : St} {r : RefineOut × List ℚ}
    (h : GInv δ Good env I s) (hp : GSplit δ Good Sub env I s r s1)
    (hcost : ∀ v ∈ r.2, (v : WithTop ℚ) ≤ s1.vUB) {m : MState} {x' : Vec} {cs : List ℕ}
    (hm : MergeCall env.norm I x' r.1 m) (hcs : mergeAll r.1.partition cs = .ok m)
    (hnd : cs.Nodup) (h2 : 2 ≤ cs.length) (hlt : ∀ c ∈ cs, c < r.1.partition.length) :
    wp (applyMerge env I m) (fun _ s' => GMerge δ Good env I s1 s') (fun _ s' => GB δ Good I s')
      { s1 with didMerge := false } := by
  obtain ⟨x, hx, hto, hcall⟩ := hp.call
  obtain ⟨mn, hmg⟩ := merging_of h2 hnd hlt hcs
  have hP1 : s1.partition = r.1.partition := hp.part
  have hlen := (C37_merge_dispatch env.norm I s.partition x hto h.size r.1 hcall).2.2.2 m x' hm
  have hub : ∀ y, PartFeas I m.partition y → Covered δ I s1.vUB s1.vLB y := by
    intro y hy
    rcases partFeas_merge hto hcall hm hy with ⟨c, hc, hs⟩ | hy'
    · obtain ⟨v, hv, xc, hd⟩ := hp.costs c hc
      have h1 := hd.2 y hy.1 hs
      have h2 := hcost v hv
      intro u hu
      rw [hu] at h2
      exact .inl (h1.trans (mul_le_mul_of_nonneg_left (WithTop.coe_le_coe.1 h2)
        (one_add_nonneg hC.delta)))
    · rw [hp.vUB]
      exact (h.ub y hy').mono hC.delta hp.vLB
  have hsh := hp.inv.shape
  refine wp_applyMerge (cs := cs) (mn := mn) hsh.aligned.lenC hsh.aligned.lenS hsh.part
    (by simp only [hP1]; exact hcs) (by simp only [hP1]; exact hmg)
    (fun e s' _ _ he => (subErr_near hC he).elim) fun D v y hD hr => ?_
  have hmg' : Merging s1.partition cs m mn := by rw [hP1]; exact hmg
  have hcs' : mergeAll s1.partition cs = .ok m := by rw [hP1]; exact hcs
  have hcomp : Computed env I (m.partition.getD mn []) v y := ⟨_, _, hr⟩
  have hl : GInv δ Good env I
      { s1 with didMerge := false, tick := s1.tick + 1, partition := m.partition
                nbSubsets := m.partition.length
                deleted := m.deleted, part := D
                costs := (keepIdx s1.costs m.deleted).set mn v
                sols := (keepIdx s1.sols m.deleted).set mn y } :=
    ⟨⟨hmg'.isPartition hsh.part hcs', rfl, hD, hmg'.aligned hsh.aligned hcomp⟩,
      by show _ ≤ m.partition.length; rw [hlen]; exact h.size, hp.inv.br.congr rfl, hub,
      hp.inv.det, hp.inv.counter, hp.inv.mem,
      fun z hz => by
        show _ ≤ m.partition.length
        rw [hlen]; exact h.zlen z (hp.zUB ▸ hz)⟩
  refine wp_mono (wp_improve_gap hC hl.br fun w hw => ?_) (fun _ s' hs' => ?_)
    fun _ _ h => h
  · rw [List.mem_singleton.1 hw]; exact computed_near hC hcomp
  · have hl' := hl.improved hC.delta hs'
    obtain ⟨a, b, c, d, -, rfl, -, hX⟩ := hs'
    exact ⟨hl', rfl, fun h0 => hX h0⟩

theorem wp_merge_gap (hC : NearContract δ Good Sub Pt big env I) {s s1 : St} {r : RefineOut × List ℚ}
    (h : GInv δ Good env I s) (hp : GSplit δ Good Sub env I s r s1) (x' : Option Vec) :
    wp (merge env cfg I x' r.1 r.2) (fun _ s' => GMerge δ Good env I s1 s') (fun _ s' => GB δ Good I s') s1 := by
  obtain ⟨x, hx, hto, hcall⟩ := hp.call
  have hok := hcall.ok hto
  have hnone : GMerge δ Good env I s1 { s1 with didMerge := false } :=
    ⟨hp.inv.congr rfl, rfl, id⟩
  have hnd : r.1.feasibleSubsets.Nodup := hok.feasSorted.imp fun h => h.ne
  have hlt : ∀ c ∈ r.1.feasibleSubsets, c < r.1.partition.length :=
    fun c hc => ((hok.feasible c).1 hc).1
  have hmu := hok.muPos
  have hbr : GB δ Good I { s1 with didMerge := false } := hp.inv.br.congr rfl
  unfold merge
  rw [wp_bind, wp_modify, wp_ite]
  refine ⟨fun hu => ?_, fun hu => hnone⟩
  rw [wp_bind, wp_lift]
  refine ⟨fun v hv => ?_, fun e he => hbr⟩
  rw [wp_bind, wp_get, wp_ite]
  refine ⟨fun hvu => ?_, fun hvu => hnone⟩
  have hcost : ∀ w ∈ r.2, (w : WithTop ℚ) ≤ s1.vUB := fun w hw =>
    (WithTop.coe_le_coe.2 (pyMax_ge hv w hw)).trans hvu
  unfold mergeDispatch
  rw [wp_ite]
  refine ⟨fun hlen => ?_, fun hlen => ?_⟩
  · unfold mergeAllFeasible
    rw [wp_bind, wp_get]
    cases ht : (sortSubsetCosts (List.range s1.nbSubsets) s1.costs).find?
          (fun c => c ∉ r.1.feasibleSubsets) with
    | none => exact hbr
    | some t =>
    simp only
    have ht1 := List.mem_of_find?_eq_some ht
    have ht2 := List.find?_some ht
    simp only [decide_eq_true_eq] at ht2
    have ht4 : t < r.1.partition.length := by
      have := List.mem_range.1 (mem_sortSubsetCosts ht1)
      rw [hp.inv.shape.nb, hp.part] at this
      exact this
    have hndt : (r.1.feasibleSubsets ++ [t]).Nodup := by
      rw [List.nodup_append]
      exact ⟨hnd, by simp, fun a ha b hb => by
        rw [List.mem_singleton.1 hb]; rintro rfl; exact ht2 ha⟩
    have hltt : ∀ c ∈ r.1.feasibleSubsets ++ [t], c < r.1.partition.length := by
      intro c hc
      rcases List.mem_append.1 hc with hc | hc
      · exact hlt c hc
      · rw [List.mem_singleton.1 hc]; exact ht4
    rw [wp_bind, wp_lift, hp.part]
    refine ⟨fun m hm => ?_, fun e he => hbr.congr rfl⟩
    have hmc : MergeCall env.norm I (fun _ => 0) r.1 m := .all t hlen ht4 ht2 hm
    rw [wp_bind]
    refine wp_mono (wp_applyMerge_gap hC h hp hcost hmc hm hndt
      (by simp; omega) hltt) (fun _ s2 h2 => ?_) fun _ _ h => h
    rw [wp_bind, wp_get, wp_bind, wp_lift]
    exact ⟨fun _ _ => ⟨h2.1.congr rfl, h2.2.1, h2.2.2⟩, fun _ _ => h2.1.br⟩
  · rw [wp_ite]
    refine ⟨fun hlen2 => ?_, fun hlen2 => hbr⟩
    unfold mergeMuPlusOne
    rw [wp_bind, wp_get]
    cases x' with
    | none => exact hbr
    | some x' =>
      simp only
      have hD : loadPartition I r.1.partition.length r.1.partition = .ok s1.part := by
        rw [← hp.part]; exact hp.inv.shape.load
      have hne : ∀ p ∈ r.1.partition, p ≠ [] := by rw [← hp.part]; exact hp.inv.shape.part.2
      obtain ⟨st, top, e1, e2, e3, e4, e5, -, -⟩ := C31_merge_feasible env.norm I r.1.partition
        hne s1.part hD x' r.1.feasibleSubsets hlt r.1.mu (by rw [hnd.dedup]; exact hlen2)
      rw [wp_bind, wp_lift, hp.part]
      refine ⟨fun m hm => ?_, fun e he => hbr.congr rfl⟩
      have hm' := hm
      rw [show mergeFeasible env.norm (partCI I s1.part) r.1.partition x' r.1.feasibleSubsets
        r.1.mu = _ from e1] at hm'
      cases hm'
      have hmc : MergeCall env.norm I x' r.1 st := .best s1.part hlen2 hD e1
      rw [wp_bind]
      refine wp_mono (wp_applyMerge_gap hC h hp hcost hmc e5 e2
        (by omega) fun c hc => hlt c (e4 c hc)) (fun _ s2 h2 => ?_) fun _ _ h => h
      exact ⟨h2.1.congr rfl, h2.2.1, h2.2.2⟩

/-! ## The loop -/

/-- What a feasible stop leaves behind. -/
def GFeasStop (δ : ℚ) (Pt : List (List ℕ) → Vec → Prop) (env : Env)
    (cfg : Cfg) (I : Inst) (s' : St) : Prop :=
  ∃ out, GSpec δ Pt env I s'.partition s'.vLB out
    ∧ (checkFeasibility env.norm I out.x).feasible = true
    ∧ (δ = 0 → 0 ≤ cfg.gap → Tight env →
      s'.vUB = (out.vObj : WithTop ℚ) ∧ s'.xUB = some out.x)

/-- A gap that is too large to stop means that the bounds do not cross. -/
theorem noCross_of_gap (hC : NearContract δ Good Sub Pt big env I) {s : St} (h : GB δ Good I s) {b : Bool}
    {g : Gap} (hg : computeGap s.vUB s.vLB b = .ok g) (hle : ¬ g.le cfg.gap = true)
    (hd : δ = 0) (h0 : 0 ≤ cfg.gap) : NoCross s := by
  intro u l hu hl
  obtain ⟨x, -, hx, hv⟩ := h.lb l hl
  have hl0 : 0 ≤ l := hv ▸ (hC.good x hx).2 hd
  rw [hu, hl] at hg
  rcases hl0.lt_or_eq with hpos | hz
  · unfold computeGap at hg
    simp only [if_neg hpos.ne'] at hg
    cases hg
    simp only [Gap.le, decide_eq_true_eq, not_le] at hle
    rw [lt_div_iff₀ hpos] at hle
    linarith [mul_nonneg h0 hpos.le]
  · subst hz
    by_contra hneg
    push Not at hneg
    unfold computeGap at hg
    simp only [if_true] at hg
    split at hg
    · simp only [if_neg (not_lt.2 hneg.le)] at hg
      cases hg
      exact hle rfl
    · cases hg

/-- How an iteration ends. -/
def GIter (δ : ℚ) (Good : Vec → Prop) (Pt : List (List ℕ) → Vec → Prop) (env : Env)
    (cfg : Cfg) (I : Inst) (gap : Gap) (s' : St) : Step → Prop
  | .stop b g => GInv δ Good env I s'
    ∧ (b = true → GFeasStop δ Pt env cfg I s')
    ∧ (b = false → g = gap ∨ GapOk cfg s' g)
  | .next g _ => GInv δ Good env I s' ∧ FeasInv env I s' ∧ ¬ g.le cfg.gap = true
    ∧ (δ = 0 → 0 ≤ cfg.gap → NoCross s')

theorem wp_splitMerge_gap (hC : NearContract δ Good Sub Pt big env I) (s : St) (h : GInv δ Good env I s)
    (hf : FeasInv env I s) (x' : Option Vec) {gap g : Gap} (hg : ¬ g.le cfg.gap = true)
    (hX : δ = 0 → 0 ≤ cfg.gap → NoCross s) :
    wp (splitMergeStep env cfg I rounds x' g) (fun r s' => GIter δ Good Pt env cfg I gap s' r)
      (fun _ s' => GB δ Good I s') s := by
  unfold splitMergeStep
  rw [wp_bind]
  refine wp_mono (wp_split_gap hC s h hf) (fun r s1 h1 => ?_) fun _ _ h' => h'
  rw [wp_bind]
  refine wp_mono (wp_merge_gap hC h h1 x') (fun _ s2 h2 => ?_) fun _ _ h' => h'
  rw [wp_bind, wp_availableTime, wp_ite]
  refine ⟨fun ht => ⟨h2.1.congr rfl, by simp, fun _ => .inr (.inl hg)⟩, fun _ => ?_⟩
  rw [wp_bind, wp_modify, wp_bind, wp_availableTime]
  exact ⟨h2.1.congr rfl, hf.congr (h2.2.1.trans h1.feas), hg,
    fun hd h0 => h2.2.2 (h1.cross (hX hd h0))⟩

theorem wp_iterate_gap (hC : NearContract δ Good Sub Pt big env I)
    (hB : BigMOk δ big env cfg) {gap : Gap} (s : St) (h : GInv δ Good env I s)
    (hf : FeasInv env I s)
    (hX : δ = 0 → 0 ≤ cfg.gap → NoCross s) :
    wp (iterate env cfg I rounds gap) (fun r s' => GIter δ Good Pt env cfg I gap s' r)
      (fun _ s' => GB δ Good I s') s := by
  unfold iterate currentGap
  rw [wp_bind, wp_bind, wp_get, wp_lift]
  refine ⟨fun _ _ => ?_, fun e he => h.br⟩
  rw [wp_bind, wp_markStep, wp_bind]
  refine wp_mono (wp_bigM_gap hC hB _ (h.congr (s' := { s with steps := s.steps ++ [s.lastRem] }) rfl)
      fun hd h0 => hX hd h0)
    (fun M s1 h1 => ?_) fun _ s' h' => h.br.congr ((key_bnds h').trans rfl)
  obtain ⟨k1, k3⟩ := h1
  have hl1 : GInv δ Good env I s1 := h.congr (k1.trans rfl)
  have hd1 : s1.part = s.part := by
    simp only [key, Prod.mk.injEq] at k1
    exact k1.1.2.2.1
  have hf1 : FeasInv env I s1 := hf.congr ((key_feas k1).trans rfl)
  have hX1 : δ = 0 → 0 ≤ cfg.gap → NoCross s1 := fun hd h0 => by
    have hk := key_bnds k1
    simp only [bnds, Prod.mk.injEq] at hk
    intro u l hu hl
    exact hX hd h0 u l (hk.1 ▸ hu) (hk.2.1 ▸ hl)
  rw [wp_bind]
  refine wp_mono (wp_upperBound_gap hC s1 hl1 (M := M) (by rw [hd1]; exact k3))
    (fun r s2 h2 => ?_) fun _ _ h' => h'
  obtain ⟨hl2, hp2, hv2, hcase⟩ := h2
  rw [wp_ite]
  refine ⟨fun hr => ?_, fun hr => ?_⟩
  · refine ⟨hl2, fun _ => ?_, by simp⟩
    rcases hcase with ⟨-, hr'⟩ | ⟨out, o1, o2, o3, o4⟩
    · rw [hr'] at hr; cases hr
    · rw [o2] at hr
      exact ⟨out, by rw [hp2, hv2]; exact o1, hr, fun hd h0 => o4 hd (hX1 hd h0)⟩
  · have hf2 : FeasInv env I s2 := by
      rcases hcase with ⟨hk, -⟩ | ⟨out, o1, o2, o3, o4⟩
      · exact hf1.congr (key_feas hk)
      · intro F hF
        rw [o3] at hF
        cases hF
        rw [o2] at hr
        exact ⟨by simpa using hr, _, rfl⟩
    rw [wp_bind, wp_availableTime, wp_ite]
    refine ⟨fun ht => ⟨hl2.congr rfl, by simp, fun _ => .inl rfl⟩, fun htime => ?_⟩
    unfold lowerStep
    rw [wp_bind, wp_markStep, wp_bind]
    refine wp_mono (wp_lowerBound_gap hC _ (hl2.congr (s' := { s2 with
      reads := s2.reads + 1
      lastRem := remaining env.clock cfg.timeLimit (s2.reads + 1)
      steps := s2.steps ++ [remaining env.clock cfg.timeLimit (s2.reads + 1)] }) rfl) r.1)
      (fun g s3 h3 => ?_) fun e s' h' => h'
    obtain ⟨hl3, -, e2, b, hgap⟩ := h3
    rw [wp_ite]
    refine ⟨fun hg => ⟨hl3, by simp, fun _ => .inr (.inr ⟨b, hgap⟩)⟩, fun hg => ?_⟩
    rw [wp_bind, wp_availableTime, wp_ite]
    refine ⟨fun ht => ⟨hl3.congr rfl, by simp, fun _ => .inr (.inl hg)⟩, fun _ => ?_⟩
    exact wp_splitMerge_gap hC { s3 with
        reads := s3.reads + 1
        lastRem := remaining env.clock cfg.timeLimit (s3.reads + 1) } (hl3.congr rfl)
      (hf2.congr (s' := { s3 with
        reads := s3.reads + 1
        lastRem := remaining env.clock cfg.timeLimit (s3.reads + 1) }) e2) r.1 hg
      fun hd h0 => noCross_of_gap hC (hl3.br.congr rfl) hgap hg hd h0

theorem wp_mainLoop_gap (hC : NearContract δ Good Sub Pt big env I)
    (hB : BigMOk δ big env cfg) :
    ∀ (fuel : ℕ) (gap : Gap) (t : ℚ) (s : St), GInv δ Good env I s → FeasInv env I s →
    (δ = 0 → 0 ≤ cfg.gap → NoCross s) →
    wp (mainLoop env cfg I rounds fuel gap t)
      (fun q s' => GInv δ Good env I s'
        ∧ (q.1 = true → GFeasStop δ Pt env cfg I s')
        ∧ (¬ gap.le cfg.gap = true → q.1 = false → GapOk cfg s' q.2))
      (fun _ s' => GB δ Good I s') s
  | fuel, gap, t, s, h, hf, hX => by
    unfold mainLoop
    rw [wp_ite]
    refine ⟨fun h0 => ?_, fun _ => ⟨h, by simp, fun hg _ => .inl hg⟩⟩
    cases fuel with
    | zero => exact h.br
    | succ fuel =>
      simp only
      rw [wp_bind]
      refine wp_mono (wp_iterate_gap hC hB (gap := gap) s h hf hX) (fun r s1 h1 => ?_)
        fun _ _ h' => h'
      cases r with
      | stop b g =>
        obtain ⟨a1, a2, a3⟩ := h1
        refine ⟨a1, a2, fun hg hb => ?_⟩
        rcases a3 hb with h2 | h2
        · exact .inl (by simp only; rw [h2]; exact hg)
        · exact h2
      | next g t' =>
        obtain ⟨a1, a2, a3, a4⟩ := h1
        exact wp_mono (wp_mainLoop_gap hC hB fuel g t' s1 a1 a2 a4)
          (fun q s2 h2 => ⟨h2.1, h2.2.1, fun _ => h2.2.2 a3⟩) fun _ _ h' => h'

/-! ## The start -/

theorem scenarioCosts_near (hC : NearContract δ Good Sub Pt big env I) {t : ℕ} {scen : List ℚ}
    (h : allScenarioCosts I (env.sub t) = .ok scen) : scen.length = I.N
      ∧ ∀ s < I.N, ∃ x, NearBy δ Sub I [s] (scen.getD s 0) x := by
  unfold allScenarioCosts scenarioCosts at h
  obtain ⟨hl, hk⟩ := mapM_inv _ _ _ h
  rw [List.length_zipIdx, List.length_range] at hl
  refine ⟨hl, fun s hs' => ?_⟩
  have hs2 : s < scen.length := by omega
  have h1 := hk s (by simpa using hs') hs2
  rw [List.getElem_zipIdx, List.getElem_range] at h1
  simp only at h1
  rw [List.getD_eq_getElem _ _ hs2]
  cases hc : subsetCost I (env.sub t (0 + s)) [s] with
  | error e => rw [hc] at h1; cases h1
  | ok r =>
    rw [hc] at h1
    have : r.1 = scen[s] := Except.ok.inj h1
    rw [← this]
    exact ⟨r.2, hC.near _ _ _ _ _ hc⟩

/-- What the constructor guarantees about the bounds. -/
theorem construct_gap (hC : NearContract δ Good Sub Pt big env I) {s : St} (h : construct env cfg I = .ok s) :
    GB δ Good I s ∧ ∀ y, PartFeas I s.partition y → Covered δ I s.vUB s.vLB y := by
  have hms : minSize I = kmax I + 1 := minSize_eq hC.eps
  obtain ⟨p1, p2, p3, p4⟩ := construct_part h
  unfold construct at h
  cases h1 : initRefiner cfg with
  | error e => rw [h1] at h; cases h
  | ok u =>
  cases h2 : initCosts env cfg I with
  | error e => rw [h1, h2] at h; cases h
  | ok scen =>
  cases h3 : createFirstPartition (env.shuffle 0 0) env.argsort scen I.N (minSize I)
      cfg.initType with
  | error e => rw [h1, h2] at h; simp only [bind, Except.bind, h3] at h; cases h
  | ok P =>
  cases h4 : loadPartition I (minSize I) P with
  | error e => rw [h1, h2] at h; simp only [bind, Except.bind, h3, h4] at h; cases h
  | ok D =>
  rw [h1, h2] at h
  simp only [bind, Except.bind, h3, h4] at h
  cases h
  have hle : minSize I ≤ I.N := by
    by_contra hgt
    unfold createFirstPartition at h3
    rw [pyAssert_false hgt] at h3
    cases h3
  have main : ∀ u : WithTop ℚ, (∀ y, PartFeas I P y → Covered δ I u ⊥ y) →
      (∀ y, Feas I y → Covered δ I u ⊥ y) := fun u hu y hy =>
    hu y (feas_partFeas hC.equi hC.eps p1 hy)
  by_cases ht : cfg.initType = "cost"
  · obtain ⟨hl, hsc⟩ : scen.length = I.N ∧ ∀ s < I.N, ∃ x, NearBy δ Sub I [s] (scen.getD s 0) x := by
      unfold initCosts at h2
      rw [if_pos ⟨ht, hle⟩] at h2
      exact scenarioCosts_near hC h2
    cases hq : ahmedBound env.argsort scen I.proba I.eps with
    | none =>
      simp only [if_pos ht, Option.map_none, Option.getD_none]
      refine ⟨⟨fun _ _ => covered_top, by rintro v ⟨⟩, fun p hp => ?_, by simp⟩,
        fun _ _ => covered_top⟩
      rw [List.mem_singleton.1 hp]
      exact ⟨fun _ _ => covered_top, by rintro v ⟨⟩⟩
    | some q =>
      have h3' := h3
      rw [hms, ht] at h3'
      obtain ⟨hlen, hcheap⟩ := cheap_scenario I (env.shuffle 0 0) env.argsort env.argsort scen P q
        hC.equi hC.eps hl h3' hq
      have hpt : ∀ y, PartFeas I P y → Covered δ I (q : WithTop ℚ) ⊥ y := by
        intro y hy
        have : ∃ c < P.length, SatAll I (P.getD c []) y := by
          by_contra hno
          push Not at hno
          have : nbViolParts I P y = P.length := by
            unfold nbViolParts
            rw [List.countP_eq_length]
            intro p hp
            obtain ⟨i, hi, rfl⟩ := List.mem_iff_getElem.1 hp
            have := hno i hi
            rw [List.getD_eq_getElem _ _ hi] at this
            simpa using this
          have := hy.2
          omega
        obtain ⟨c, hc, hs⟩ := this
        obtain ⟨s, s1, s2, s3⟩ := hcheap c hc
        obtain ⟨x, hx⟩ := hsc s s2
        have := hx.2 y hy.1 (by intro t ht'; rw [List.mem_singleton.1 ht']; exact hs s s1)
        exact covered_near (this.trans (mul_le_mul_of_nonneg_left s3 (one_add_nonneg hC.delta)))
      simp only [if_pos ht, Option.map_some, Option.getD_some]
      refine ⟨⟨main _ hpt, by rintro v ⟨⟩, fun p hp => ?_, by simp⟩, hpt⟩
      rw [List.mem_singleton.1 hp]
      exact ⟨main _ hpt, by rintro v ⟨⟩⟩
  · simp only [if_neg ht, Option.getD_some]
    refine ⟨⟨fun _ _ => covered_top, by rintro v ⟨⟩, fun p hp => ?_, by simp⟩,
      fun _ _ => covered_top⟩
    rw [List.mem_singleton.1 hp]
    exact ⟨fun _ _ => covered_top, by rintro v ⟨⟩⟩

/-- The start of `solve` establishes the invariant. -/
theorem wp_start_gap (hC : NearContract δ Good Sub Pt big env I) {s : St} (h : construct env cfg I = .ok s) :
    wp (startSolve env I) (fun _ s' => GInv δ Good env I s' ∧ s'.feas = none ∧ NoCross s')
      (fun _ s' => GB δ Good I s') s := by
  obtain ⟨p1, p2, p3, p4⟩ := construct_part h
  obtain ⟨c1, c2, c3, c4, c5, c6, c7, c8, c9, c10, c11, -⟩ := construct_start h
  obtain ⟨b1, b3⟩ := construct_gap hC h
  unfold startSolve improveFirst
  rw [wp_bind, wp_nextTick, wp_bind, wp_get, wp_bind, wp_lift]
  refine ⟨fun r hr => ?_, fun e he => b1.congr rfl⟩
  have hal := partitionCost_aligned (env := env) hr
  have hl : GInv δ Good env I { s with tick := s.tick + 1, costs := r.1, sols := r.2 } := by
    refine ⟨⟨p1, p2.trans p3.symm, p4, hal⟩, ?_, b1.congr rfl, b3, ⟨[], ?_, by simp⟩, ?_, ?_, ?_⟩
    · show _ ≤ s.partition.length
      rw [p3, minSize_eq hC.eps]
    · show DetInv _ s.lb.deter s.lb.scenarios []
      rw [c6]; exact lbInit_inv I
    · show s.lb.counter.length = _
      rw [c6]; simp [LBState.init]
    · show SplitHistory _ _ s.memory
      rw [c9]; exact .start
    · intro z hz
      have : s.zUB = some z := hz
      rw [c10] at this; cases this
  rw [wp_bind, wp_modify, wp_bind, wp_bind, wp_get, wp_ite]
  refine ⟨fun hn => hl.br, fun _ => ?_⟩
  refine wp_mono (wp_improve_gap hC hl.br fun y hy => ?_) (fun _ s' hs' => ?_)
    fun _ _ h => h
  · obtain ⟨c, hc, rfl⟩ := List.mem_iff_getElem.1 hy
    have hc' : c < s.partition.length := by rw [← hal.lenS]; exact hc
    have := hal.comp c hc'
    rw [List.getD_eq_getElem _ _ (hal.lenS ▸ hc')] at this
    rw [List.getD_eq_getElem _ _ hc] at this
    exact computed_near hC this
  · rw [wp_modify]
    have hl' := hl.improved hC.delta hs'
    obtain ⟨a, b, c, d, -, rfl, -, hX⟩ := hs'
    exact ⟨hl'.congr rfl, c7, fun u l hu hl => hX (fun u l _ hl => by
      have hl' : s.vLB = (l : WithBot ℚ) := hl
      rw [c4] at hl'; cases hl') u l hu hl⟩

/-- Whole runs: the state before the final report. -/
theorem run_near (hC : NearContract δ Good Sub Pt big env I) (hB : BigMOk δ big env cfg)
    {fuel : ℕ} {r : Except PyErr (Bool × Gap)} {s : St}
    (h : run env cfg I rounds fuel = .ok (r, s)) :
    ∃ s', GB δ Good I s' ∧ s.vUB = s'.vUB ∧ s.trace = s'.trace
      ∧ ((∀ g, r ≠ .ok (true, g)) → s' = s)
      ∧ (∀ g, cfg.gap < 1 → r = .ok (false, g) → GapOk cfg s g)
      ∧ ∀ g, r = .ok (true, g) → GFeasStop δ Pt env cfg I s' ∧ s.xUB = s'.xUB ∧ s.xLB = s'.xUB
        ∧ ∀ u : ℚ, s'.vUB = u → s.vLB = (u : WithBot ℚ) := by
  obtain ⟨s0, hc, hs⟩ := run_inv h
  have hmain : wp (solve env cfg I rounds fuel)
      (fun q s => ∃ s', GB δ Good I s' ∧ s.vUB = s'.vUB ∧ s.trace = s'.trace
        ∧ (q.1 = false → s' = s) ∧ (cfg.gap < 1 → q.1 = false → GapOk cfg s q.2)
        ∧ (q.1 = true → GFeasStop δ Pt env cfg I s' ∧ s.xUB = s'.xUB ∧ s.xLB = s'.xUB
          ∧ ∀ u : ℚ, s'.vUB = u → s.vLB = (u : WithBot ℚ)))
      (fun _ s' => GB δ Good I s') s0 := by
    unfold solve
    rw [wp_bind]
    refine wp_mono (wp_start_gap hC hc) (fun _ s1 h1 => ?_) fun _ _ h' => h'
    obtain ⟨a1, a2, a3⟩ := h1
    rw [wp_bind, wp_availableTime, wp_bind]
    refine wp_mono (wp_mainLoop_gap hC hB fuel (.fin 1) _ _ (a1.congr rfl) ?_ fun _ _ => a3)
      (fun q s2 h2 => ?_) fun e s2 h' => h'
    · intro F hF
      have : s1.feas = some F := hF
      rw [a2] at this
      cases this
    · obtain ⟨b1, b2, b3⟩ := h2
      have hstart : cfg.gap < 1 → ¬ (Gap.fin 1).le cfg.gap = true := fun hg => by
        simp only [Gap.le, decide_eq_true_eq, not_le]
        exact hg
      unfold report
      rw [wp_bind, wp_ite]
      refine ⟨fun hq => ?_, fun hq => ?_⟩
      · rw [wp_modify]
        exact ⟨s2, b1.br, rfl, rfl, by rw [hq]; simp, by rw [hq]; simp, fun _ =>
          ⟨b2 hq, rfl, rfl, fun u hu => by simp only [hu]⟩⟩
      · exact ⟨s2, b1.br, rfl, rfl, fun _ => rfl, fun hg => b3 (hstart hg),
          fun hq' => absurd hq' hq⟩
  cases r with
  | error e =>
    exact ⟨s, wp_error hmain hs, rfl, rfl, fun _ => rfl, by rintro g - ⟨⟩, by rintro g ⟨⟩⟩
  | ok q =>
    obtain ⟨s', a1, a2, a3, a4, a5, a6⟩ := wp_ok hmain hs
    obtain ⟨b, g⟩ := q
    refine ⟨s', a1, a2, a3, fun hq => ?_, ?_, ?_⟩
    · cases b
      · exact a4 rfl
      · exact absurd rfl (hq g)
    · rintro g' hg ⟨⟩
      exact a5 hg rfl
    · rintro g' ⟨⟩
      exact a6 rfl

/-! ## Subset problems solved within Gurobi's default gap -/

/-- `Contract` with subset problems solved within the default gap only; the big-M problems are
left out. -/
structure GapContract (env : Env) (I : Inst) : Prop where
  equi : Equi I
  eps : 0 ≤ I.eps
  tolOk : TolOk I
  ab : NonnegAb I
  c : NonnegC I
  m : 0 < I.m
  n : 0 < I.n
  sub : ∀ t k g, GapAnswers g (env.sub t k g)
  sharp : ∀ t k l v x, subsetCost I (env.sub t k) l = .ok (v, x) → Sharp I x
  cc : ∀ t g, GResult.Valid g (env.cc t g)
  lb : ∀ t g, GResult.Valid g (env.lb t g)
  acc : ∀ t k g, GResult.Answers g (env.acc t k g)

theorem subsetCost_answers (hab : NonnegAb I) {l : List ℕ} {solve : GModel → GResult}
    (hA : GResult.Answers (Deter.build (instCI I) l).g (solve (Deter.build (instCI I) l).g))
    (hl : ∀ s ∈ l, s < I.N) : ∃ r, subsetCost I solve l = .ok r := by
  have hs := hA.solved (build_bounded I l)
    ⟨fun _ => 0, (build_feas I l _).2 ⟨zero_inX I, zero_satAll hab hl⟩⟩
  obtain ⟨ρ, hs⟩ := Option.isSome_iff_exists.1 hs
  unfold subsetCost
  rw [optimize, if_neg hA.notInterrupted]
  simp only [getObjVal, getX, getSol, hs, bind, Except.bind, pure, Except.pure]
  exact ⟨_, rfl⟩

/-- A point of a subset problem. -/
def SubPt (I : Inst) (l : List ℕ) (x : Vec) : Prop := InX I x ∧ SatAll I l x

theorem firstPt {P : List (List ℕ)} {c : ℕ} {x : Vec} (hsize : P.length = kmax I + 1)
    (hcP : c < P.length) (h : SubPt I (P.getD c []) x) : PartFeas I P x := by
  refine ⟨h.1, ?_⟩
  have : nbViolParts I P x < P.length := by
    unfold nbViolParts
    refine lt_of_le_of_ne List.countP_le_length ?_
    rw [Ne, List.countP_eq_length]
    push Not
    refine ⟨P.getD c [], ?_, by simpa using h.2⟩
    rw [List.getD_eq_getElem _ _ hcP]; exact List.getElem_mem _
  omega

theorem ccPoint_exact (hE : Equi I) (heps : 0 ≤ I.eps) {r : GResult}
    {P : List (List ℕ)} {D : PartData} {M : Option (List (List ℚ))} {zs prune : List ℕ} {gap : ℚ}
    {g : GModel} {ρ : V → ℚ} (hr : GResult.Valid g r) (hP : IsPartition I.N P)
    (hD : loadPartition I P.length P = .ok D)
    (hM : ∀ Ms, M = some Ms → SameSolutions (partCI I D) Ms) (hz : ∀ c ∈ zs, c < P.length)
    (hp : ∀ c ∈ prune, c < P.length) (hg : buildCCLP (partCI I D) M zs prune gap = .ok g)
    (hs : r.sol = some ρ) :
    PartFeas I P (fun j => ρ (.x j)) ∧ obj I (fun j => ρ (.x j)) = r.objVal := by
  have hnb := nbScen_part hP hD
  obtain ⟨f1, f2⟩ := hr.feas ρ hs
  obtain ⟨g0, h1, h2, h3, -, h4⟩ := buildCCLP_ok (partCI I D) none (by rintro _ ⟨⟩) zs prune gap
    (by rw [hnb]; exact hz) (by rw [hnb]; exact hp)
  have key : g.obj = g0.obj ∧ g0.Feas ρ := by
    cases M with
    | none => rw [h1] at hg; cases hg; exact ⟨rfl, f1⟩
    | some Ms =>
      obtain ⟨k, k0, b1, b2, b3, -, -, b6⟩ := hM Ms rfl zs prune gap (by rw [hnb]; exact hz)
        (by rw [hnb]; exact hp)
      rw [hg] at b1
      cases b1
      rw [h1] at b2
      cases b2
      exact ⟨b3, (b6 ρ).1 f1⟩
  obtain ⟨⟨a1, a2, a3, -⟩, a4⟩ := (h4 ρ).1 key.2
  refine ⟨⟨a1, zOk_partFeas hE heps hP hD (z := fun s => ρ (.z s)) ⟨a2, a3, a4⟩⟩, ?_⟩
  rw [← f2, key.1, h2, eval_objExpr]
  rfl

theorem lbPoint_exact {r : GResult} {d : Deter} {l : List ℕ} {cuts : List ℚ} {ρ : V → ℚ}
    (hr : GResult.Valid d.g r) (hd : DetInv (instCI I) d l cuts) (hs : r.sol = some ρ) :
    SubPt I l (fun j => ρ (.x j)) ∧ obj I (fun j => ρ (.x j)) = r.objVal := by
  obtain ⟨f1, f2⟩ := hr.feas ρ hs
  obtain ⟨g1, g2, -⟩ := (hd.feas ρ).1 f1
  refine ⟨⟨g1, g2⟩, ?_⟩
  rw [← f2, hd.obj, eval_objExpr]
  rfl

theorem GapContract.near (h : GapContract env I) :
    NearContract (1 / 10 ^ 4) (Feas I) (SubPt I) (PartFeas I) True env I where
  equi := h.equi
  eps := h.eps
  tolOk := h.tolOk
  ab := h.ab
  c := h.c
  m := h.m
  n := h.n
  delta := by norm_num
  sub := fun t k _ hl => subsetCost_answers h.ab (h.sub t k _).answers hl
  near := fun t k l v x hr => by
    obtain ⟨⟨h1, h2, h3⟩, h4⟩ := subsetCost_near h.c (h.sub t k _) hr
    exact ⟨⟨⟨h1, h2⟩, h3⟩, h4⟩
  good := fun x hx => ⟨by linarith [obj_nonneg h.c hx.1, show (0 : ℚ) ≤ 10 ^ 6 by norm_num],
    fun _ => obj_nonneg h.c hx.1⟩
  cand := fun t k l v x hr ha => sharp_feas h.equi h.eps
    (subsetCost_near h.c (h.sub t k _) hr).1.1 (h.sharp t k l v x hr) ha
  ccBound := fun t g => (h.cc t g).bound
  ccPoint := fun t P D M zs prune gap g ρ hP hD hM hz hp hg hs =>
    ccPoint_exact h.equi h.eps (h.cc t g) hP hD (fun Ms e => (hM Ms e).1) hz hp hg hs
  ptExact := fun _ _ _ hx => hx
  first := fun _ _ _ h1 h2 h3 => firstPt h1 h2 h3
  lbInf := fun t g h3 => ((h.lb t g).infeasible h3).2
  lbPoint := fun t d _ _ _ hd hs => lbPoint_exact (h.lb t d.g) hd hs
  lbGood := fun argsort index l x hlen hsel hx =>
    ⟨hx.1, C17_chance_partial I argsort index hlen h.equi h.eps h.tolOk _ hsel _ hx.2⟩
  acc := fun t => splitter_any (fun s hs i hi => (h.ab s hs i hi).1) (h.acc t)

/-! ## Solutions within the tolerance -/

/-- `Contract` without the assumption that violations exceed the tolerance. -/
structure TolContract (env : Env) (I : Inst) : Prop where
  equi : Equi I
  eps : 0 ≤ I.eps
  tolOk : TolOk I
  ab : NonnegAb I
  c : NonnegC I
  m : 0 < I.m
  n : 0 < I.n
  sub : ∀ t k g, GResult.Exact g (env.sub t k g)
  cc : ∀ t g, GResult.Valid g (env.cc t g)
  lb : ∀ t g, GResult.Valid g (env.lb t g)
  acc : ∀ t k g, GResult.Answers g (env.acc t k g)
  big : ∀ t g, GResult.Answers g (env.big t g)

theorem feas_accepted (hE : Equi I) (heps : 0 ≤ I.eps) {x : Vec} (hx : Feas I x) :
    Accepted I x := by
  have h1 := (chance_iff_card I hE heps x).1 hx.2
  have h2 : ((kmax I : ℕ) : ℚ) ≤ I.eps * I.N := Nat.floor_le (mul_nonneg heps (by positivity))
  refine le_trans ?_ h2
  have : violBy I (1 / 10 ^ 6) x ⊆ viol I x := by
    intro s hs
    obtain ⟨a1, i, hi, a2⟩ := Finset.mem_filter.1 hs
    refine Finset.mem_filter.2 ⟨a1, fun hsat => ?_⟩
    have := hsat i hi
    linarith [show (0 : ℚ) < 1 / 10 ^ 6 by norm_num]
  exact_mod_cast (Finset.card_le_card this).trans h1

theorem TolContract.near (h : TolContract env I) :
    NearContract 0 (fun x => InX I x ∧ Accepted I x) (SubPt I) (PartFeas I) True env I where
  equi := h.equi
  eps := h.eps
  tolOk := h.tolOk
  ab := h.ab
  c := h.c
  m := h.m
  n := h.n
  delta := le_rfl
  sub := fun t k _ hl => subsetCost_answers h.ab (h.sub t k _).answers hl
  near := fun t k l v x hr => by
    obtain ⟨⟨h1, h2, h3⟩, h4⟩ := (subsetCost_spec (I := I) (h.sub t k _)).1 _ _ hr
    exact ⟨⟨⟨h1, h2⟩, h3⟩, fun y hy hs => by rw [add_zero, one_mul]; exact h4 y hy hs⟩
  good := fun x hx => ⟨by linarith [obj_nonneg h.c hx.1, show (0 : ℚ) ≤ 10 ^ 6 by norm_num],
    fun _ => obj_nonneg h.c hx.1⟩
  cand := fun t k l v x hr ha =>
    ⟨((subsetCost_spec (I := I) (h.sub t k _)).1 _ _ hr).1.1, ha⟩
  ccBound := fun t g => (h.cc t g).bound
  ccPoint := fun t P D M zs prune gap g ρ hP hD hM hz hp hg hs =>
    ccPoint_exact h.equi h.eps (h.cc t g) hP hD (fun Ms e => (hM Ms e).1) hz hp hg hs
  ptExact := fun _ _ _ hx => hx
  first := fun _ _ _ h1 h2 h3 => firstPt h1 h2 h3
  lbInf := fun t g h3 => ((h.lb t g).infeasible h3).2
  lbPoint := fun t d _ _ _ hd hs => lbPoint_exact (h.lb t d.g) hd hs
  lbGood := fun argsort index l x hlen hsel hx => ⟨hx.1, feas_accepted h.equi h.eps
    ⟨hx.1, C17_chance_partial I argsort index hlen h.equi h.eps h.tolOk _ hsel _ hx.2⟩⟩
  acc := fun t => splitter_any (fun s hs i hi => (h.ab s hs i hi).1) (h.acc t)

end Verif.Model
