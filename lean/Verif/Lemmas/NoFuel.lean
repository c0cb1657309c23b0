import Verif.Lemmas.Exec

/-!
# The functions without unbounded loops never run out of rounds, and only `_merge` raises its
own exceptions
-/

namespace Verif.Model

/-- The exceptions of the dispatch of `_merge` (src/solver/AdaptivePartitioner.py:188, 193, 239). -/
def MergeErr (e : PyErr) : Prop :=
  e = .valueErrorAt "AdaptivePartitioner.py:239"
    ∨ e = .unboundLocalErrorAt "AdaptivePartitioner.py:188"
    ∨ e = .assertion "AdaptivePartitioner.py:193"

/-- Gurobi's error about a negative time limit (src/solver/Solver.py:113). -/
def TimeErr (e : PyErr) : Prop := e = .gurobiErrorAt "Solver.py:113"

/-- The outcomes that the functions of this file never have, apart from the last one in
`solve_cclp_model`. -/
def Special (e : PyErr) : Prop := e = .fuel ∨ MergeErr e ∨ TimeErr e

/-- `B` is one of the three kinds. -/
class Sp (B : PyErr → Prop) : Prop where
  sp : ∀ e, B e → Special e

/-- `B` is one of the first two kinds. -/
class NT (B : PyErr → Prop) : Prop extends Sp B where
  nt : ¬ B (.gurobiErrorAt "Solver.py:113")

instance : NT (· = .fuel) := { sp := fun _ h => .inl h, nt := by simp }
instance : NT MergeErr := { sp := fun _ h => .inr (.inl h), nt := by unfold MergeErr; simp }
instance : Sp TimeErr := ⟨fun _ h => .inr (.inr h)⟩

/-- The call does not end with an outcome in `B`. -/
structure NF (B : PyErr → Prop) {α : Type} (m : PyM α) : Prop where
  no : ∀ e, m = .error e → ¬ B e

variable {α β : Type} {B : PyErr → Prop}

theorem NF.out {m : PyM α} (h : NF (· = .fuel) m) : m ≠ .error .fuel := fun h' => h.no _ h' rfl

theorem nf_ok (a : α) : NF B (.ok a : PyM α) := ⟨by rintro _ ⟨⟩⟩
theorem nf_pure (a : α) : NF B (pure a : PyM α) := ⟨by rintro _ ⟨⟩⟩

/-- Closes goals `¬ Special e`. -/
macro "nsp" : tactic => `(tactic| (unfold Special MergeErr TimeErr; simp))

theorem nf_err [Sp B] {e : PyErr} (h : ¬ Special e) : NF B (.error e : PyM α) :=
  ⟨by rintro _ ⟨⟩ h'; exact h (Sp.sp _ h')⟩
theorem nf_throw [Sp B] {e : PyErr} (h : ¬ Special e) : NF B (throw e : PyM α) :=
  ⟨by rintro _ ⟨⟩ h'; exact h (Sp.sp _ h')⟩

theorem nf_bind {m : PyM α} {f : α → PyM β} (h : NF B m) (h' : ∀ a, NF B (f a)) :
    NF B (m >>= f) := by
  cases m with
  | ok a => exact h' a
  | error e => exact ⟨fun e' he' => h.no _ (by cases he'; rfl)⟩

theorem nf_assert [Sp B] (site : String) (p : Prop) [Decidable p]
    (h : ¬ Special (.assertion site) := by nsp) : NF B (pyAssert site p) := by
  unfold pyAssert
  split
  · exact nf_ok _
  · exact nf_err h

variable [Sp B]

theorem nf_mapM {f : α → PyM β} (h : ∀ a, NF B (f a)) : ∀ l : List α, NF B (l.mapM f)
  | [] => by rw [List.mapM_nil]; exact nf_pure _
  | a :: l => by
    rw [List.mapM_cons]
    exact nf_bind (h a) fun b => nf_bind (nf_mapM h l) fun _ => nf_pure _

theorem nf_foldlM {f : β → α → PyM β} (h : ∀ b a, NF B (f b a)) :
    ∀ (l : List α) (b : β), NF B (l.foldlM f b)
  | [], b => by rw [List.foldlM_nil]; exact nf_pure _
  | a :: l, b => by
    rw [List.foldlM_cons]
    exact nf_bind (h b a) fun b => nf_foldlM h l b

theorem nf_get (l : List α) (k : ℕ) : NF B (pyGet l k) := by
  unfold pyGet; split
  · exact nf_ok _
  · exact nf_err (by nsp)

theorem nf_set (l : List α) (k : ℕ) (v : α) : NF B (pySet l k v) := by
  unfold pySet; split
  · exact nf_ok _
  · exact nf_err (by nsp)

theorem nf_del (l : List α) (k : ℕ) : NF B (pyDel l k) := by
  unfold pyDel; split
  · exact nf_ok _
  · exact nf_err (by nsp)

theorem nf_filter {f : α → PyM Bool} (h : ∀ a, NF B (f a)) : ∀ l : List α, NF B (pyFilter f l)
  | [] => nf_ok _
  | a :: l => nf_bind (h a) fun _ => nf_bind (nf_filter h l) fun _ => nf_pure _

theorem nf_assocGet [DecidableEq α] (d : List (α × β)) (k : α) : NF B (assocGet d k) := by
  unfold assocGet; split
  · exact nf_ok _
  · exact nf_err (by nsp)

theorem nf_assocPop [DecidableEq α] (d : List (α × β)) (k : α) : NF B (assocPop d k) := by
  unfold assocPop; split
  · exact nf_ok _
  · exact nf_err (by nsp)

theorem nf_optimize (r : GResult) : NF B (optimize r) := by
  unfold optimize; split
  · exact nf_err (by nsp)
  · exact nf_ok _

theorem nf_getSol (r : GResult) : NF B (getSol r) := by
  unfold getSol; split
  · exact nf_ok _
  · exact nf_err (by nsp)

theorem nf_getObjVal (r : GResult) : NF B (getObjVal r) := by
  unfold getObjVal; split
  · exact nf_ok _
  · exact nf_err (by nsp)

theorem nf_getX (r : GResult) : NF B (getX r) := nf_bind (nf_getSol r) fun _ => nf_pure _

/-- Closes goals `NF m` by following the structure of `m`. -/
macro "nf" : tactic => `(tactic| repeat' first
  | assumption
  | with_reducible exact nf_ok _
  | with_reducible exact nf_pure _
  | with_reducible exact nf_assert _ _
  | with_reducible exact nf_get _ _
  | with_reducible exact nf_set _ _ _
  | with_reducible exact nf_del _ _
  | with_reducible exact nf_assocGet _ _
  | with_reducible exact nf_assocPop _ _
  | with_reducible exact nf_optimize _
  | with_reducible exact nf_getSol _
  | with_reducible exact nf_getObjVal _
  | with_reducible exact nf_getX _
  | with_reducible exact nf_err (by nsp)
  | with_reducible exact nf_throw (by nsp)
  | with_reducible apply nf_mapM
  | with_reducible apply nf_foldlM
  | with_reducible apply nf_filter
  | with_reducible apply nf_bind
  | intro _
  | split)

variable {env : Env} {cfg : Cfg} {I : Inst}

theorem nf_subsetCost (solve : GModel → GResult) (l : List ℕ) : NF B (subsetCost I solve l) := by
  unfold subsetCost; nf

theorem nf_partitionCost (solve : ℕ → GModel → GResult) (P : List (List ℕ)) :
    NF B (partitionCost I solve P) := by
  unfold partitionCost
  exact nf_bind (nf_mapM (fun _ => nf_subsetCost _ _) _) fun _ => nf_pure _

theorem nf_computeGap (u : WithTop ℚ) (l : WithBot ℚ) (b : Bool) : NF B (computeGap u l b) := by
  unfold computeGap; nf

theorem nf_knapLoop (rev w : List ℚ) (cap : ℚ) : ∀ (l : List ℕ) (p k : ℚ),
    NF B (knapLoop rev w cap l p k)
  | [], _, _ => nf_ok _
  | i :: is, p, k => by
    have := nf_knapLoop rev w cap is
    unfold knapLoop
    simp only
    split
    · refine nf_bind (nf_assert _ _) fun _ => ?_
      split
      · exact this _ _
      · exact this _ _
    · exact nf_ok _

theorem nf_updateBigM (argsort : Argsort) (srt : CppSort) (solve : GModel → GResult) (J : CI)
    (isPart : Bool) (nb : ℕ) (vUB : Option ℚ) (method : String) (I : Option Inst)
    (P : Option (List (List ℕ))) : NF B (updateBigM argsort srt solve J isPart nb vUB method I P) := by
  have hq : ∀ (eps : ℚ) (nb : ℕ) (v : List (WithTop ℚ)), NF B (quantileBigM eps nb v) := by
    intro eps nb v
    unfold quantileBigM npGet
    simp only
    nf
  unfold updateBigM
  split
  · split
    · unfold runBelotti belottiMip belottiContinuous
      split
      · nf
      · refine nf_mapM (fun _ => nf_mapM (fun _ => ?_) _) _
        exact nf_knapLoop _ _ _ _ _ _
    · nf
  · split
    · split
      · unfold cppViolations runSong
        refine nf_bind (by nf) fun v => ?_
        have : ∀ l : List (WithTop ℚ), NF B (pyMinTop l) := by
          intro l; unfold pyMinTop; nf
        split
        · refine nf_bind (nf_assert _ _) fun _ => nf_mapM (fun _ => nf_mapM (fun _ => ?_) _) _
          split
          · exact nf_bind (nf_get _ _) fun _ => nf_bind (nf_get _ _) fun _ =>
              nf_bind (nf_mapM (fun _ => this _) _) fun _ => hq _ _ _
          · exact hq _ _ _
        · refine nf_bind (nf_assert _ _) fun _ => nf_mapM (fun _ => nf_mapM (fun _ => ?_) _) _
          split
          · exact nf_bind (nf_get _ _) fun _ => nf_bind (nf_get _ _) fun _ =>
              nf_bind (nf_mapM (fun _ => this _) _) fun _ => hq _ _ _
          · exact hq _ _ _
      · nf
    · nf

theorem nf_getZStart (z : Option (List ℚ)) (d : List ℕ) : NF B (getZStart z d) := by
  unfold getZStart; nf

theorem nf_buildCCLP (J : CI) (M : Option (List (List ℚ))) (zs pr : List ℕ) (gap : ℚ) :
    NF B (buildCCLP J M zs pr gap) := by
  unfold buildCCLP
  simp only
  cases M with
  | none => nf
  | some M =>
    have h1 : NF B (allBigM J M) := by unfold allBigM; nf
    nf

theorem nf_solveCclp {B : PyErr → Prop} [NT B] (J : CI) (M : Option (List (List ℚ)))
    (zs pr : List ℕ) (gap l b : ℚ) (solve : GModel → GResult) :
    NF B (solveCclp J M zs pr gap l b solve) := by
  have h : NF B (setTimeLimit (l - b)) := by
    unfold setTimeLimit
    split
    · exact nf_ok _
    · exact ⟨by rintro _ ⟨⟩ h; exact NT.nt h⟩
  unfold solveCclp
  exact nf_bind (nf_buildCCLP _ _ _ _ _) fun _ => nf_bind h fun _ => by nf

theorem nf_checkResults (n : ℕ) (a b : Bool) (x : Vec) (v : ℚ) (y : Option Vec) (u : WithTop ℚ) :
    NF B (checkResults n a b x v y u) := by
  unfold checkResults checkSame
  nf

theorem nf_firstIterationBound (costs : List ℚ) (sols : List Vec) :
    NF B (firstIterationBound costs sols) := by
  have : NF B (npArgmax costs) := by unfold npArgmax; nf
  unfold firstIterationBound
  nf

theorem nf_deterministicBound (norm : Norm) (argsort : Argsort) (p : String)
    (solve : GModel → GResult) (st : LBState) (l : WithBot ℚ) (x : Option Vec) :
    NF B (deterministicBound norm argsort I p solve st l x) := by
  have h1 : ∀ c, NF B (indexScenarios norm I p c x) := fun c => by unfold indexScenarios; nf
  have h2 : ∀ i, NF B (selectedScenarios argsort I i) := fun i => by
    unfold selectedScenarios; simp only; nf
  have h3 : ∀ (g : GModel) h, NF B (g.remove h) := fun g h => by unfold GModel.remove; nf
  unfold deterministicBound
  refine nf_bind (h1 _) fun _ => nf_bind (h2 _) fun _ => ?_
  split
  · nf
  · unfold solveDeter updateDeter readDeter
    refine nf_bind (nf_bind ?_ fun _ => nf_pure _) fun _ => by nf
    unfold Deter.remove
    refine nf_foldlM (fun _ _ => ?_) _ _
    unfold Deter.remove1
    refine nf_bind (nf_foldlM (fun _ _ => ?_) _ _) fun _ => nf_pure _
    unfold Deter.removeRow
    refine nf_bind (nf_assocGet _ _) fun _ => ?_
    split
    · exact h3 _ _
    · nf

theorem nf_npMin (l : List ℚ) : NF B (npMin l) := by unfold npMin; nf

theorem nf_loadPartition (k : ℕ) (P : List (List ℕ)) : NF B (loadPartition I k P) := by
  unfold loadPartition
  refine nf_bind (by nf) fun _ => nf_bind (nf_mapM (fun _ => ?_) _) fun _ => by nf
  exact nf_bind (nf_get _ _) fun _ => nf_npMin _

theorem nf_delAll : ∀ (ds : List ℕ) (l : List α), NF B (delAll ds l)
  | [], _ => nf_ok _
  | _ :: ds, _ => nf_bind (nf_del _ _) fun l => nf_delAll ds l

theorem nf_mergeAll (P : List (List ℕ)) (cs : List ℕ) : NF B (mergeAll P cs) := by
  have h1 : ∀ st a b, NF B (mergeTwo st a b) := fun st a b => by unfold mergeTwo; simp only; nf
  have h2 : ∀ mn (l : List ℕ) st, NF B (mergeAllLoop mn l st) := by
    intro mn l
    induction l with
    | nil => exact fun _ => nf_ok _
    | cons a l ih =>
      intro st
      unfold mergeAllLoop
      split
      · exact nf_bind (h1 _ _ _) fun _ => ih _
      · exact ih _
  have h3 : NF B (pyMin cs) := by unfold pyMin; nf
  unfold mergeAll deleteSubsets
  exact nf_bind h3 fun _ => nf_bind (h2 _ _ _) fun _ =>
    nf_bind (nf_bind (nf_delAll _ _) fun _ => nf_pure _) fun _ => by nf

theorem nf_mergeFeasible (norm : Norm) (J : CI) (P : List (List ℕ)) (x : Vec) (cs : List ℕ)
    (mu : ℕ) : NF B (mergeFeasible norm J P x cs mu) := by
  unfold mergeFeasible
  exact nf_bind (nf_assert _ _) fun _ => nf_bind (nf_mergeAll _ _) fun _ => by nf

theorem nf_pyMax (l : List ℚ) : NF B (pyMax l) := by unfold pyMax; nf

/-! ## Refinement -/

theorem nf_finishRefine (F : CheckOut) (P : List (List ℕ)) (mu : ℕ) (st : RState) :
    NF B (finishRefine I F P mu st) := by
  unfold finishRefine checkFinalPartition
  nf

theorem nf_evaluateSplit (F : CheckOut) (solve : ℕ → GModel → GResult) (st : CState) (c : ℕ) :
    NF B (evaluateSplit I F solve st c) := by
  have : ∀ g a b, NF B (accurateObjSplit I g a b) := fun g a b => by unfold accurateObjSplit; nf
  unfold evaluateSplit
  refine nf_bind (nf_get _ _) fun _ => ?_
  simp only
  split
  · exact nf_bind (this _ _ _) fun _ => nf_pure _
  · exact nf_pure _

theorem nf_performSplit (F : CheckOut) (solve : ℕ → GModel → GResult) (u : WithTop ℚ)
    (st : CState) : NF B (performSplit I F solve u st) := by
  have h1 : NF B (chooseSplit u st.post) := by
    have : ∀ l, NF B (argminKey l) := fun l => by unfold argminKey; nf
    unfold chooseSplit
    simp only
    split
    · nf
    · exact this _
  unfold performSplit
  refine nf_bind h1 fun _ => nf_bind (nf_assocGet _ _) fun _ => nf_bind (nf_set _ _ _) fun _ =>
    nf_bind (nf_assocGet _ _) fun _ => nf_bind ?_ fun _ => nf_bind ?_ fun _ => nf_pure _
  · unfold updateOld
    split
    · exact nf_evaluateSplit _ _ _ _
    · nf
  · unfold updateNew
    split
    · exact nf_evaluateSplit _ _ _ _
    · nf

theorem nf_costLoop {F : CheckOut} {solve : ℕ → GModel → GResult} {u : WithTop ℚ}
    {P0 : List (List ℕ)} {mu : ℕ} : ∀ (fuel : ℕ) (st : CState), RShape P0 st.base →
      (B .fuel → mu ≤ fuel + st.base.muCounter) → NF B (costLoop I F solve u mu fuel st)
  | 0, st, _, hmu => by
    unfold costLoop
    split
    · exact ⟨by rintro _ ⟨⟩ hB; have := hmu hB; omega⟩
    · exact nf_ok _
  | fuel + 1, st, h, hmu => by
    unfold costLoop
    split
    · have h0 := nf_performSplit (B := B) (I := I) F solve u st
      show NF B ((performSplit I F solve u st).bind _)
      cases h1 : performSplit I F solve u st with
      | error e => rw [h1] at h0; exact ⟨fun e' h' => h0.no _ (by cases h'; rfl)⟩
      | ok st1 =>
        obtain ⟨h2, h3⟩ := performSplit_shape h h1
        exact nf_costLoop fuel st1 h2 fun hB => by have := hmu hB; omega
    · exact nf_ok _

theorem nf_refineCost {F : CheckOut} {solve : ℕ → GModel → GResult} {argsort : Argsort}
    {costs : List ℚ} {u : WithTop ℚ} {mem : Memory} {fuel : ℕ} {P : List (List ℕ)}
    (hf : B .fuel → (⌊I.eps * (I.N : ℚ)⌋ + 1).toNat ≤ fuel) :
    NF B (refineCost I F solve argsort costs u mem fuel P) := by
  unfold refineCost
  simp only
  have hn : NF B (numberOfSplits I (findInfeasibleSubsets P F.infeasibleScenarios).2.length) := by
    unfold numberOfSplits; simp only; nf
  show NF B (Except.bind _ _)
  cases hmu : numberOfSplits I (findInfeasibleSubsets P F.infeasibleScenarios).2.length with
  | error e => rw [hmu] at hn; exact ⟨fun e' h' => hn.no _ (by cases h'; rfl)⟩
  | ok mu =>
    refine nf_bind (m := pyAssert _ _) (nf_assert _ _) fun _ => ?_
    show NF B (Except.bind _ _)
    have he : NF B (evaluateSplits I F solve (argsort.run costs)
        { base := RState.init P, memory := mem, post := [], left := [], right := [] }) := by
      unfold evaluateSplits
      exact nf_bind (by nf) fun _ => nf_foldlM (fun _ _ => nf_evaluateSplit _ _ _ _) _ _
    cases h1 : evaluateSplits I F solve (argsort.run costs)
        { base := RState.init P, memory := mem, post := [], left := [], right := [] } with
    | error e => rw [h1] at he; exact ⟨fun e' h' => he.no _ (by cases h'; rfl)⟩
    | ok st1 =>
      have hb : ∃ k, st1.base = { RState.init P with calls := k } := by
        unfold evaluateSplits at h1
        simp only [bind, Except.bind] at h1
        split at h1
        · cases h1
        · exact evaluate_fold_base _ h1
      obtain ⟨k, hk⟩ := hb
      refine nf_bind (m := costLoop I F solve u mu fuel st1) (nf_costLoop (P0 := P) _ _ ?_ ?_)
        fun _ => nf_bind (nf_finishRefine _ _ _ _) fun _ => nf_pure _
      · rw [hk]; exact (RShape.init P).calls k
      · intro hB
        have := hf hB
        unfold numberOfSplits at hmu
        simp only [bind, Except.bind] at hmu
        split at hmu
        · cases hmu
        · have : (⌊I.eps * (I.N : ℚ)⌋ + 1
              - ((findInfeasibleSubsets P F.infeasibleScenarios).2.length : ℤ)).toNat = mu :=
            Except.ok.inj hmu
          omega

end Verif.Model
