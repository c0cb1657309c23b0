import Verif.Model.BigM
import Verif.Lemmas.Optim
import Verif.Lemmas.Knapsack
import Verif.Lemmas.Parse
import Verif.Props.Partition

/-!
# Lemmas on big-M lists, quantiles and the big-M model
-/

open Finset

namespace Verif.Model
open Spec Props

/-- Entry `(s, i)` of a list of big-M vectors. -/
def bigMAt (Ms : List (List ℚ)) (s i : ℕ) : ℚ := (Ms.getD s []).getD i 0

/-- One big-M for every constraint of every scenario. -/
def Shape (J : CI) (Ms : List (List ℚ)) : Prop :=
  Ms.length = J.nbScen ∧ ∀ s < J.nbScen, (Ms.getD s []).length = J.nbCon s

/-- Every row relaxed by its big-M holds at `x`. -/
def Covers (J : CI) (Ms : List (List ℚ)) (x : Vec) : Prop :=
  ∀ s < J.nbScen, ∀ i < J.nbCon s, dot J.n (J.row s i) x ≤ J.rhs s i + bigMAt Ms s i

/-- Non-negative rows, capacities and objective, as seen through the getters. -/
def NonnegCI (J : CI) : Prop :=
  (∀ s < J.nbScen, ∀ i < J.nbCon s, 0 ≤ J.rhs s i ∧ ∀ j < J.n, 0 ≤ J.row s i j)
    ∧ ∀ j < J.n, 0 ≤ J.c j

/-! ## `mapM` -/

theorem mapM_inv {α β : Type} (l : List α) (f : α → PyM β) (r : List β) (h : l.mapM f = .ok r) :
    r.length = l.length ∧ ∀ (k : ℕ) (h1 : k < l.length) (h2 : k < r.length),
      f l[k] = .ok r[k] := by
  induction l generalizing r with
  | nil =>
    rw [List.mapM_nil] at h
    cases h
    exact ⟨rfl, by simp⟩
  | cons a l ih =>
    rw [List.mapM_cons] at h
    cases ha : f a with
    | error e => rw [ha] at h; cases h
    | ok b =>
      cases hl : l.mapM f with
      | error e => rw [ha, hl] at h; cases h
      | ok r' =>
        rw [ha, hl] at h
        cases h
        obtain ⟨h1, h2⟩ := ih r' hl
        refine ⟨by simp [h1], fun k hk1 hk2 => ?_⟩
        cases k with
        | zero => simpa using ha
        | succ k => simpa using h2 k (by simpa using hk1) (by simpa using hk2)

theorem mapM_range_inv {β : Type} (n : ℕ) (f : ℕ → PyM β) (r : List β) (d : β)
    (h : (List.range n).mapM f = .ok r) : r.length = n ∧ ∀ k < n, f k = .ok (r.getD k d) := by
  obtain ⟨h1, h2⟩ := mapM_inv _ f r h
  rw [List.length_range] at h1
  refine ⟨h1, fun k hk => ?_⟩
  have := h2 k (by simpa using hk) (by omega)
  rwa [List.getElem_range, ← List.getD_eq_getElem _ d] at this

/-- A table computed entry by entry. -/
theorem table_ok (J : CI) (f : ℕ → ℕ → PyM ℚ)
    (h : ∀ s < J.nbScen, ∀ i < J.nbCon s, ∃ M, f s i = .ok M) :
    ∃ Ms, ((List.range J.nbScen).mapM fun s => (List.range (J.nbCon s)).mapM fun i => f s i) = .ok Ms
      ∧ Shape J Ms ∧ ∀ s < J.nbScen, ∀ i < J.nbCon s, f s i = .ok (bigMAt Ms s i) := by
  have h' : ∀ s i, ∃ M, s < J.nbScen → i < J.nbCon s → f s i = .ok M := fun s i => by
    by_cases hs : s < J.nbScen ∧ i < J.nbCon s
    · obtain ⟨M, hM⟩ := h s hs.1 i hs.2
      exact ⟨M, fun _ _ => hM⟩
    · exact ⟨0, fun a b => absurd ⟨a, b⟩ hs⟩
  choose M hM using h'
  refine ⟨(List.range J.nbScen).map fun s => (List.range (J.nbCon s)).map (M s), ?_, ⟨by simp, ?_⟩, ?_⟩
  · exact mapM_ok _ _ _ fun s hs => mapM_ok _ _ _ fun i hi =>
      hM s i (List.mem_range.1 hs) (List.mem_range.1 hi)
  · intro s hs; simp [hs]
  · intro s hs i hi
    rw [hM s i hs hi]
    simp [bigMAt, hs, hi]

theorem table_error (J : CI) (f : ℕ → ℕ → PyM ℚ) (e : PyErr) (h0 : 0 < J.nbScen)
    (h1 : 0 < J.nbCon 0) (h : f 0 0 = .error e) :
    ((List.range J.nbScen).mapM fun s => (List.range (J.nbCon s)).mapM fun i => f s i)
      = .error e := by
  obtain ⟨a, ha⟩ := Nat.exists_eq_succ_of_ne_zero h0.ne'
  obtain ⟨b, hb⟩ := Nat.exists_eq_succ_of_ne_zero h1.ne'
  rw [ha, List.range_succ_eq_map, List.mapM_cons, hb, List.range_succ_eq_map, List.mapM_cons, h]
  rfl

/-! ## Rows -/

theorem dot_nonneg {n : ℕ} {a x : Vec} (ha : ∀ j < n, 0 ≤ a j) (hx : ∀ j < n, 0 ≤ x j) :
    0 ≤ dot n a x := Finset.sum_nonneg fun j hj =>
  mul_nonneg (ha j (Finset.mem_range.1 hj)) (hx j (Finset.mem_range.1 hj))

theorem dot_le_sum {n : ℕ} {a x : Vec} (ha : ∀ j < n, 0 ≤ a j) (hx : InBox n x) :
    dot n a x ≤ ∑ j ∈ range n, a j := Finset.sum_le_sum fun j hj => by
  have hj := Finset.mem_range.1 hj
  nlinarith [ha j hj, (hx j hj).2]

theorem inDom_box {J : CI} {x : Vec} (h : InDom J x) : InBox J.n x := by
  intro j hj
  have := h j hj
  cases hc : J.cont
  · rw [hc] at this
    simp only [Bool.false_eq_true, if_false] at this
    rcases this with h | h <;> rw [h] <;> norm_num
  · rw [hc] at this; simpa using this

theorem inDom_zero (J : CI) : InDom J fun _ => 0 := by
  intro j _; split <;> simp

theorem naive_at (J : CI) {s i : ℕ} (hs : s < J.nbScen) (hi : i < J.nbCon s) :
    bigMAt (naiveAll J J.nbScen) s i = ∑ j ∈ range J.n, J.row s i j - J.rhs s i := by
  simp [bigMAt, naiveAll, naiveBigM, hs, hi, list_sum_range]

theorem naive_shape (J : CI) : Shape J (naiveAll J J.nbScen) := by
  refine ⟨by simp [naiveAll], fun s hs => ?_⟩
  simp [naiveAll, naiveBigM, hs]

/-- The rows of a partitioned instance are rows of the scenarios of the subset. -/
theorem partCI_row {I : Inst} {P : List (List ℕ)} (hP : IsPartition I.N P) {D : PartData}
    (hD : loadPartition I P.length P = .ok D) {c k : ℕ} (hc : c < P.length)
    (hk : k < (partCI I D).nbCon c) :
    ∃ s ∈ P.getD c [], s = (P.getD c []).getD (k / I.m) 0 ∧ k / I.m < (P.getD c []).length
      ∧ s < I.N ∧ k % I.m < I.m
      ∧ (∀ j < I.n, (partCI I D).row c k j = I.A s (k % I.m) j)
      ∧ (partCI I D).rhs c k = I.b s (k % I.m) := by
  have hn := (C10_subset_rows I P hP.2 D hD c hc).1
  rw [hn] at hk
  have hm : 0 < I.m := Nat.pos_of_ne_zero fun h => by rw [h] at hk; simp at hk
  have hq : k / I.m < (P.getD c []).length := Nat.div_lt_of_lt_mul (by rwa [mul_comm] at hk)
  have hmem : (P.getD c []).getD (k / I.m) 0 ∈ P.getD c [] := by
    rw [List.getD_eq_getElem _ _ hq]; exact List.getElem_mem _
  have hPc : P.getD c [] ∈ P := by rw [List.getD_eq_getElem _ _ hc]; exact List.getElem_mem _
  rw [loadPartition_ok I P hP.2] at hD
  cases hD
  exact ⟨_, hmem, rfl, hq, mem_part_lt hP hPc hmem, Nat.mod_lt _ hm,
    fun j hj => stackedA_eq I _ hj, rfl⟩

theorem nonnegCI_inst {I : Inst} (hI : NonnegAb I) (hc : NonnegC I) : NonnegCI (instCI I) := ⟨hI, hc⟩

theorem nbScen_part {I : Inst} {P : List (List ℕ)} (hP : IsPartition I.N P) {D : PartData}
    (hD : loadPartition I P.length P = .ok D) : (partCI I D).nbScen = P.length := by
  rw [loadPartition_ok I P hP.2] at hD
  cases hD; rfl

theorem nonnegCI_part {I : Inst} (hI : NonnegAb I) (hc : NonnegC I) {P : List (List ℕ)}
    (hP : IsPartition I.N P) {D : PartData} (hD : loadPartition I P.length P = .ok D) :
    NonnegCI (partCI I D) := by
  refine ⟨fun c hc k hk => ?_, hc⟩
  rw [nbScen_part hP hD] at hc
  obtain ⟨s, _, _, _, hs, hi, hr, hb⟩ := partCI_row hP hD hc hk
  refine ⟨hb ▸ (hI s hs _ hi).1, fun j hj => ?_⟩
  rw [hr j hj]; exact (hI s hs _ hi).2 j hj

/-! ## Quantile -/

theorem npGet_nat {α : Type} (l : List α) (k : ℕ) : npGet l (k : ℤ) = pyGet l k := by
  simp [npGet]

theorem floor_add_one {e : ℚ} (h : 0 ≤ e) : ⌊e⌋ + 1 = ((⌊e⌋₊ + 1 : ℕ) : ℤ) := by
  rw [Nat.cast_add, Int.natCast_floor_eq_floor h]; rfl

theorem quantile_ok {eps : ℚ} {nb : ℕ} {l : List (WithTop ℚ)} (h0 : 0 ≤ eps * nb)
    (hfin : ∀ v ∈ l, ∃ q : ℚ, v = (q : WithTop ℚ)) (hq : ⌊eps * nb⌋₊ + 1 < l.length) :
    ∃ M : ℚ, quantileBigM eps nb l = .ok M ∧ (M : WithTop ℚ) ∈ l
      ∧ ⌊eps * nb⌋₊ + 2 ≤ l.countP fun v => v ≤ (M : WithTop ℚ) := by
  set q := ⌊eps * nb⌋₊ + 1 with hqdef
  have hperm := List.perm_insertionSort (fun a b : WithTop ℚ => a ≤ b) l
  have hsort : (l.insertionSort fun a b => a ≤ b).Pairwise (· ≤ ·) :=
    List.pairwise_insertionSort _ _
  have hlen : q < (l.insertionSort fun a b => a ≤ b).length := by rwa [hperm.length_eq]
  have hmem := hperm.mem_iff.1 (List.getElem_mem hlen)
  obtain ⟨M, hM⟩ := hfin _ hmem
  refine ⟨M, ?_, hM ▸ hmem, ?_⟩
  · unfold quantileBigM
    simp only
    rw [floor_add_one h0, npGet_nat, pyGet_of_lt ⊤ hlen, List.getD_eq_getElem _ _ hlen, hM]
    rfl
  · rw [← hperm.countP_eq]
    have hsplit := List.take_append_drop (q + 1) (l.insertionSort fun a b => a ≤ b)
    rw [← hsplit, List.countP_append]
    have hall : ((l.insertionSort fun a b => a ≤ b).take (q + 1)).countP
        (fun v => v ≤ (M : WithTop ℚ)) = q + 1 := by
      rw [List.countP_eq_length.2, List.length_take]
      · omega
      · intro v hv
        obtain ⟨k, hk, rfl⟩ := List.mem_iff_getElem.1 hv
        rw [List.length_take] at hk
        rw [List.getElem_take, ← hM, decide_eq_true_iff]
        rcases Nat.lt_or_ge k q with h | h
        · exact List.pairwise_iff_getElem.1 hsort k q (by omega) hlen h
        · have : k = q := by omega
          subst this; exact le_refl _
    omega

theorem quantile_error {eps : ℚ} {nb : ℕ} {l : List (WithTop ℚ)} (h0 : 0 ≤ eps * nb)
    (hq : l.length ≤ ⌊eps * nb⌋₊ + 1) : quantileBigM eps nb l = .error .indexError := by
  unfold quantileBigM
  simp only
  rw [floor_add_one h0, npGet_nat, pyGet]
  rw [List.getElem?_eq_none (by rw [List.length_insertionSort]; exact hq)]
  rfl

/-! ## Feasible assignments of the CCLP model -/

/-- Indicators `z` that witness the chance constraint at `x`. -/
def ZOk (J : CI) (z : ℕ → ℚ) (x : Vec) : Prop :=
  (∀ s < J.nbScen, z s = 0 ∨ z s = 1)
    ∧ ∑ s ∈ range J.nbScen, J.proba s * z s ≥ 1 - J.eps
    ∧ ∀ s < J.nbScen, z s = 1 → RowsHold J s x

theorem varZ_ok (J : CI) (ρ : V → ℚ) :
    (∀ d ∈ varZ J, d.Ok ρ) ↔ ∀ s < J.nbScen, ρ (.z s) = 0 ∨ ρ (.z s) = 1 := by
  unfold varZ
  simp only [List.mem_map, List.mem_range, forall_exists_index, and_imp]
  constructor
  · intro h s hs
    exact (h _ s hs rfl).1 rfl
  · intro h d s hs hd
    subst hd
    rcases h s hs with h | h <;> simp [VarDecl.Ok, h]

theorem allIndicators_holds (J : CI) (ρ : V → ℚ) :
    (∀ c ∈ allIndicators J, c.Holds ρ) ↔
      ∀ s < J.nbScen, ρ (.z s) = 1 → RowsHold J s fun j => ρ (.x j) := by
  unfold allIndicators RowsHold
  simp only [List.mem_flatten, List.mem_map, List.mem_range, forall_exists_index, and_imp]
  constructor
  · intro h s hs hz i hi
    have := h _ _ s hs rfl (List.mem_map.2 ⟨i, List.mem_range.2 hi, rfl⟩)
    simpa [Constr.Holds, Lin.Holds, eval_lhsExpr] using this (by simpa using hz)
  · intro h c l s hs hl hc
    subst hl
    obtain ⟨i, hi, rfl⟩ := List.mem_map.1 hc
    simp only [Constr.Holds, Lin.Holds, eval_lhsExpr, eval_ofConst]
    intro hz
    exact h s hs (by simpa using hz) i (List.mem_range.1 hi)

theorem allBigM_ok {J : CI} {Ms : List (List ℚ)} (hM : Shape J Ms) :
    allBigM J Ms = .ok ((List.range J.nbScen).map fun s =>
      ((List.range (J.nbCon s)).map fun i => bigMConstrs J s i (bigMAt Ms s i)).flatten).flatten := by
  unfold allBigM
  rw [mapM_ok (g := fun s => ((List.range (J.nbCon s)).map fun i =>
    bigMConstrs J s i (bigMAt Ms s i)).flatten)]
  · rfl
  · intro s hs
    have hs := List.mem_range.1 hs
    rw [pyGet_of_lt [] (by rw [hM.1]; exact hs)]
    simp only [bind, Except.bind]
    rw [mapM_ok (g := fun i => bigMConstrs J s i (bigMAt Ms s i))]
    · rfl
    · intro i hi
      have hi := List.mem_range.1 hi
      rw [pyGet_of_lt 0 (by rw [hM.2 s hs]; exact hi)]
      rfl

/-- What the big-M constraints of one scenario require. -/
def BigMRow (J : CI) (Ms : List (List ℚ)) (z : ℕ → ℚ) (x : Vec) (s i : ℕ) : Prop :=
  if bigMAt Ms s i ≥ -(1 / 10 ^ 6) then
    dot J.n (J.row s i) x ≤ J.rhs s i + bigMAt Ms s i * (1 - z s)
  else J.cont = true ∨ dot J.n (J.row s i) x ≤ J.rhs s i + bigMAt Ms s i

theorem bigMConstrs_holds (J : CI) (Ms : List (List ℚ)) (s i : ℕ) (ρ : V → ℚ) :
    (∀ c ∈ bigMConstrs J s i (bigMAt Ms s i), c.Holds ρ) ↔
      BigMRow J Ms (fun s => ρ (.z s)) (fun j => ρ (.x j)) s i := by
  unfold bigMConstrs BigMRow
  split
  · simp [bigMConstr, Constr.Holds, Lin.Holds, eval_lhsExpr]
  · cases hc : J.cont
    · simp [fixedConstr, Constr.Holds, Lin.Holds, eval_lhsExpr]
    · simp

theorem allBigM_holds (J : CI) (Ms : List (List ℚ)) (ρ : V → ℚ) :
    (∀ c ∈ ((List.range J.nbScen).map fun s =>
      ((List.range (J.nbCon s)).map fun i =>
        bigMConstrs J s i (bigMAt Ms s i)).flatten).flatten, c.Holds ρ) ↔
      ∀ s < J.nbScen, ∀ i < J.nbCon s, BigMRow J Ms (fun s => ρ (.z s)) (fun j => ρ (.x j)) s i := by
  constructor
  · intro h s hs i hi
    rw [← bigMConstrs_holds]
    intro c hc
    exact h c (List.mem_flatten.2 ⟨_, List.mem_map.2 ⟨s, List.mem_range.2 hs, rfl⟩,
      List.mem_flatten.2 ⟨_, List.mem_map.2 ⟨i, List.mem_range.2 hi, rfl⟩, hc⟩⟩)
  · intro h c hc
    obtain ⟨_, hl, hc⟩ := List.mem_flatten.1 hc
    obtain ⟨s, hs, rfl⟩ := List.mem_map.1 hl
    obtain ⟨_, hl, hc⟩ := List.mem_flatten.1 hc
    obtain ⟨i, hi, rfl⟩ := List.mem_map.1 hl
    exact (bigMConstrs_holds J Ms s i ρ).2 (h s (List.mem_range.1 hs) i (List.mem_range.1 hi)) c hc

/-- The assignments of the model before the row constraints are added. -/
def BaseOk (J : CI) (prune : List ℕ) (ρ : V → ℚ) : Prop :=
  (InDom J fun j => ρ (.x j)) ∧ (∀ s < J.nbScen, ρ (.z s) = 0 ∨ ρ (.z s) = 1)
    ∧ ∑ s ∈ range J.nbScen, J.proba s * ρ (.z s) ≥ 1 - J.eps ∧ ∀ s ∈ prune, ρ (.z s) = 0

/-- The model for given row constraints. -/
def cclpModel (J : CI) (cs : List Constr) (prune : List ℕ) (gap : ℚ) : GModel :=
  ((((((GModel.empty.addVars (varX J)).setObjective (objExpr J) true).addVars
        (varZ J)).addConstrs cs).addConstr (chanceConstr J)).addConstrs
        (prune.map fixZero)).setMIPGap gap

theorem cclpModel_fields (J : CI) (cs : List Constr) (prune : List ℕ) (gap : ℚ) :
    (cclpModel J cs prune gap).obj = objExpr J ∧ (cclpModel J cs prune gap).maximize = true
      ∧ (cclpModel J cs prune gap).mipGap = gap := by
  refine ⟨?_, ?_, rfl⟩
  · show (GModel.addConstrs _ _).obj = _
    rw [addConstrs_obj]
    show (GModel.addConstrs _ _).obj = _
    rw [addConstrs_obj]; rfl
  · show (GModel.addConstrs _ _).maximize = _
    rw [addConstrs_maximize]
    show (GModel.addConstrs _ _).maximize = _
    rw [addConstrs_maximize]; rfl

theorem buildCCLP_mipGap {J : CI} {bigM : Option (List (List ℚ))} {zStart prune : List ℕ} {gap : ℚ}
    {g : GModel} (h : buildCCLP J bigM zStart prune gap = .ok g) : g.mipGap = gap := by
  unfold buildCCLP at h
  simp only [bind, Except.bind, pure, Except.pure] at h
  repeat' split at h
  all_goals first | (cases h; rfl) | cases h

/-- Result of `CCLPModel.build` and of the pruning loop. -/
theorem buildCCLP_ok (J : CI) (bigM : Option (List (List ℚ)))
    (hM : ∀ Ms, bigM = some Ms → Shape J Ms) (zStart prune : List ℕ) (gap : ℚ)
    (hz : ∀ s ∈ zStart, s < J.nbScen) (hp : ∀ s ∈ prune, s < J.nbScen) :
    ∃ g, buildCCLP J bigM zStart prune gap = .ok g ∧ g.obj = objExpr J ∧ g.maximize = true
      ∧ g.mipGap = gap
      ∧ ∀ ρ, g.Feas ρ ↔ BaseOk J prune ρ ∧
        (match bigM with
        | some Ms => ∀ s < J.nbScen, ∀ i < J.nbCon s,
            BigMRow J Ms (fun s => ρ (.z s)) (fun j => ρ (.x j)) s i
        | none => ∀ s < J.nbScen, ρ (.z s) = 1 → RowsHold J s fun j => ρ (.x j)) := by
  have key : ∀ cs : List Constr, ∀ ρ : V → ℚ,
      (cclpModel J cs prune gap).Feas ρ
      ↔ BaseOk J prune ρ ∧ ∀ c ∈ cs, c.Holds ρ := by
    intro cs ρ
    unfold cclpModel
    rw [feas_setMIPGap, feas_addConstrs, feas_addConstr, feas_addConstrs, feas_addVars,
      feas_setObjective, feas_addVars, varX_ok, varZ_ok]
    simp only [feas_empty, true_and, BaseOk]
    have h1 : (chanceConstr J).Holds ρ ↔ ∑ s ∈ range J.nbScen, J.proba s * ρ (.z s) ≥ 1 - J.eps := by
      simp [chanceConstr, Constr.Holds, Lin.Holds]
    have h2 : (∀ c ∈ prune.map fixZero, c.Holds ρ) ↔ ∀ s ∈ prune, ρ (.z s) = 0 := by
      simp [fixZero, Constr.Holds, Lin.Holds]
    rw [h1, h2]
    tauto
  have hz' : ¬ ∃ s ∈ zStart, ¬ s < J.nbScen := fun ⟨s, h1, h2⟩ => h2 (hz s h1)
  have hp' : ¬ ∃ s ∈ prune, ¬ s < J.nbScen := fun ⟨s, h1, h2⟩ => h2 (hp s h1)
  cases bigM with
  | some Ms =>
    refine ⟨cclpModel J _ prune gap, ?_, (cclpModel_fields _ _ _ _).1, (cclpModel_fields _ _ _ _).2.1,
      rfl, fun ρ => (key _ ρ).trans (and_congr_right fun _ => allBigM_holds J Ms ρ)⟩
    unfold buildCCLP
    simp only [if_neg hz', if_neg hp', allBigM_ok (hM Ms rfl), bind, Except.bind, pure, Except.pure]
    rfl
  | none =>
    refine ⟨cclpModel J _ prune gap, ?_, (cclpModel_fields _ _ _ _).1, (cclpModel_fields _ _ _ _).2.1,
      rfl, fun ρ => (key _ ρ).trans (and_congr_right fun _ => allIndicators_holds J ρ)⟩
    unfold buildCCLP
    simp only [if_neg hz', if_neg hp', bind, Except.bind, pure, Except.pure]
    rfl

/-! ## Rows with negative big-M -/

/-- **Scaling argument.** With non-negative data and a valid big-M, a point of `[0,1]^n` that
satisfies the kept rows of the selected scenarios satisfies every row with negative big-M; the big-M may
be wrong by up to `1e-6`. -/
theorem skipped_rows_err {J : CI} (hJ : NonnegCI J) (hcont : J.cont = true) {e : ℚ} (he : e ≤ 1 / 10 ^ 6)
    {Ms : List (List ℚ)} (hvalid : ∀ x z, InDom J x → ZOk J z x → ∀ s < J.nbScen, ∀ i < J.nbCon s,
      dot J.n (J.row s i) x ≤ J.rhs s i + bigMAt Ms s i + e)
    {x : Vec} {z : ℕ → ℚ} (hx : InDom J x) (hz : ∀ s < J.nbScen, z s = 0 ∨ z s = 1)
    (hch : ∑ s ∈ range J.nbScen, J.proba s * z s ≥ 1 - J.eps)
    (hrows : ∀ s < J.nbScen, z s = 1 → ∀ i < J.nbCon s, bigMAt Ms s i ≥ -(1 / 10 ^ 6) →
      dot J.n (J.row s i) x ≤ J.rhs s i)
    {s i : ℕ} (hs : s < J.nbScen) (hi : i < J.nbCon s) (hM : ¬ bigMAt Ms s i ≥ -(1 / 10 ^ 6)) :
    dot J.n (J.row s i) x ≤ J.rhs s i := by
  by_contra hviol
  push Not at hviol
  have hbox := inDom_box hx
  set S := ((range J.nbScen).sigma fun s => range (J.nbCon s)).filter fun p =>
    ¬ bigMAt Ms p.1 p.2 ≥ -(1 / 10 ^ 6) ∧ J.rhs p.1 p.2 < dot J.n (J.row p.1 p.2) x with hS
  have hmemS : ∀ a b, (⟨a, b⟩ : Σ _ : ℕ, ℕ) ∈ S ↔ (a < J.nbScen ∧ b < J.nbCon a) ∧
      (¬ bigMAt Ms a b ≥ -(1 / 10 ^ 6) ∧ J.rhs a b < dot J.n (J.row a b) x) := by
    intro a b
    rw [hS, Finset.mem_filter, Finset.mem_sigma]
    simp
  have hne : S.Nonempty := ⟨⟨s, i⟩, (hmemS s i).2 ⟨⟨hs, hi⟩, hM, hviol⟩⟩
  obtain ⟨⟨s0, i0⟩, h0, hmin⟩ := S.exists_min_image
    (fun p => J.rhs p.1 p.2 / dot J.n (J.row p.1 p.2) x) hne
  obtain ⟨⟨hs0, hi0⟩, hM0, hv0⟩ := (hmemS s0 i0).1 h0
  set t := J.rhs s0 i0 / dot J.n (J.row s0 i0) x with ht
  have hb0 := (hJ.1 s0 hs0 i0 hi0).1
  have hd0 : 0 < dot J.n (J.row s0 i0) x := lt_of_le_of_lt hb0 hv0
  have ht0 : 0 ≤ t := div_nonneg hb0 hd0.le
  have ht1 : t ≤ 1 := (div_le_one hd0).2 hv0.le
  have hscale : ∀ a : Vec, dot J.n a (fun j => t * x j) = t * dot J.n a x := fun a => by
    unfold dot; rw [Finset.mul_sum]; exact Finset.sum_congr rfl fun j _ => by ring
  have hdom : InDom J fun j => t * x j := by
    intro j hj
    rw [if_pos hcont]
    obtain ⟨h1, h2⟩ := hbox j hj
    exact ⟨mul_nonneg ht0 h1, mul_le_one₀ ht1 h1 h2⟩
  have hzok : ZOk J z fun j => t * x j := by
    refine ⟨hz, hch, fun a ha hza b hb => ?_⟩
    rw [hscale]
    have hrb := (hJ.1 a ha b hb)
    have hdn : 0 ≤ dot J.n (J.row a b) x := dot_nonneg hrb.2 fun j hj => (hbox j hj).1
    by_cases hMab : bigMAt Ms a b ≥ -(1 / 10 ^ 6)
    · exact (mul_le_of_le_one_left hdn ht1).trans (hrows a ha hza b hb hMab)
    · by_cases hvab : J.rhs a b < dot J.n (J.row a b) x
      · have := hmin ⟨a, b⟩ ((hmemS a b).2 ⟨⟨ha, hb⟩, hMab, hvab⟩)
        exact (le_div_iff₀ (lt_of_le_of_lt hrb.1 hvab)).1 this
      · push Not at hvab
        exact (mul_le_of_le_one_left hdn ht1).trans hvab
  have := hvalid _ z hdom hzok s0 hs0 i0 hi0
  rw [hscale, ht, div_mul_cancel₀ _ hd0.ne'] at this
  push Not at hM0
  linarith

theorem skipped_rows_hold {J : CI} (hJ : NonnegCI J) (hcont : J.cont = true)
    {Ms : List (List ℚ)} (hvalid : ∀ x z, InDom J x → ZOk J z x → Covers J Ms x)
    {x : Vec} {z : ℕ → ℚ} (hx : InDom J x) (hz : ∀ s < J.nbScen, z s = 0 ∨ z s = 1)
    (hch : ∑ s ∈ range J.nbScen, J.proba s * z s ≥ 1 - J.eps)
    (hrows : ∀ s < J.nbScen, z s = 1 → ∀ i < J.nbCon s, bigMAt Ms s i ≥ -(1 / 10 ^ 6) →
      dot J.n (J.row s i) x ≤ J.rhs s i)
    {s i : ℕ} (hs : s < J.nbScen) (hi : i < J.nbCon s) (hM : ¬ bigMAt Ms s i ≥ -(1 / 10 ^ 6)) :
    dot J.n (J.row s i) x ≤ J.rhs s i :=
  skipped_rows_err hJ hcont (e := 0) (by norm_num)
    (fun x z h1 h2 s hs i hi => by have := hvalid x z h1 h2 s hs i hi; linarith) hx hz hch hrows hs hi hM

end Verif.Model
