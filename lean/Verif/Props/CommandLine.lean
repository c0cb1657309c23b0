import Verif.Lemmas.PyNumber
import Verif.Model.CommandLine
import Verif.Props.CsvText
import Verif.Props.Generator
import Verif.Props.FloatFiles

/-!
# C100: calls of main.py
-/

namespace Verif.Props
open Spec Model

/-- What five or more arguments ask for: the file, the kind of variables, the risk level, the method and
the prefix of the result files.  Further arguments are ignored. -/
def Asks (args : List Txt) (c : CmdLine) : Prop :=
  ∃ kind eps meth rest, args = c.location :: kind :: eps :: meth :: c.out :: rest
    ∧ (∃ k, IntText kind k ∧ (c.cont = true ↔ k = 1))
    ∧ (∃ g, FloatText eps g ∧ c.eps = roundDouble g) ∧ IntText meth c.method

theorem pyIntArg_ok {t : Txt} {z : ℤ} : pyIntArg t = .ok z ↔ IntText t z := by
  rw [← intOf_iff]
  unfold pyIntArg
  cases h : intOf t <;> simp

theorem pyFloatArg_ok {t : Txt} {g : Gap} : pyFloatArg t = .ok g ↔ ∃ g', FloatText t g' ∧ g = roundDouble g' := by
  rw [← floatOf_iff]
  unfold pyFloatArg
  cases h : floatOf t <;> simp

theorem pyIntArg_err {t : Txt} {e : PyErr} (h : pyIntArg t = .error e) : e = .valueError := by
  unfold pyIntArg at h
  split at h
  · cases h
  · cases h; rfl

theorem pyFloatArg_err {t : Txt} {e : PyErr} (h : pyFloatArg t = .error e) : e = .valueError := by
  unfold pyFloatArg at h
  split at h
  · cases h
  · cases h; rfl

theorem parseArgs_five (a b e m o : Txt) (rest : List Txt) : parseArgs (a :: b :: e :: m :: o :: rest) = (do
    let kind ← pyIntArg b
    let eps ← pyFloatArg e
    let method ← pyIntArg m
    pure ⟨a, decide (kind = 1), eps, method, o⟩) := by
  simp only [parseArgs, pyGet, bind, Except.bind, pure, Except.pure, List.getElem?_cons_zero,
    List.getElem?_cons_succ]

/-- A shorter list is rejected. -/
theorem parseArgs_short {args : List Txt} (h : args.length < 5) :
    ∃ e, parseArgs args = .error e ∧ (e = .valueError ∨ e = .indexError) := by
  match args, h with
  | [], _ => exact ⟨_, rfl, .inr rfl⟩
  | [_], _ => exact ⟨_, rfl, .inr rfl⟩
  | [_, b], _ =>
    simp only [parseArgs, pyGet, bind, Except.bind, List.getElem?_cons_zero, List.getElem?_cons_succ,
      List.getElem?_nil]
    cases hb : pyIntArg b with
    | error e => exact ⟨_, rfl, .inl (pyIntArg_err hb)⟩
    | ok k => exact ⟨_, rfl, .inr rfl⟩
  | [_, b, e], _ =>
    simp only [parseArgs, pyGet, bind, Except.bind, List.getElem?_cons_zero, List.getElem?_cons_succ,
      List.getElem?_nil]
    cases hb : pyIntArg b with
    | error e => exact ⟨_, rfl, .inl (pyIntArg_err hb)⟩
    | ok k =>
      cases he : pyFloatArg e with
      | error e => exact ⟨_, rfl, .inl (pyFloatArg_err he)⟩
      | ok g => exact ⟨_, rfl, .inr rfl⟩
  | [_, b, e, m], _ =>
    simp only [parseArgs, pyGet, bind, Except.bind, List.getElem?_cons_zero, List.getElem?_cons_succ,
      List.getElem?_nil]
    cases hb : pyIntArg b with
    | error e => exact ⟨_, rfl, .inl (pyIntArg_err hb)⟩
    | ok k =>
      cases he : pyFloatArg e with
      | error e => exact ⟨_, rfl, .inl (pyFloatArg_err he)⟩
      | ok g =>
        cases hm : pyIntArg m with
        | error e => exact ⟨_, rfl, .inl (pyIntArg_err hm)⟩
        | ok z => exact ⟨_, rfl, .inr rfl⟩

theorem five_args {args : List Txt} (h : ¬ args.length < 5) :
    ∃ a b e m o rest, args = a :: b :: e :: m :: o :: rest := by
  match args, h with
  | [], h => simp at h
  | [_], h => simp at h
  | [_, _], h => simp at h
  | [_, _, _], h => simp at h
  | [_, _, _, _], h => simp at h
  | a :: b :: e :: m :: o :: rest, _ => exact ⟨a, b, e, m, o, rest, rfl⟩

/-- **C100 (arguments).**  For all argument lists: main.py accepts exactly the lists of at least five
arguments whose second and fourth are texts of integers and whose third is a text of a number, in the notation
of Python, and takes from them the instance file, continuous variables exactly if the second is 1, the
double next to the third, the method and the prefix of the result files; otherwise it raises `IndexError`,
which needs fewer than five arguments, or `ValueError`. -/
theorem C100_arguments (args : List Txt) :
    (∀ c, parseArgs args = .ok c ↔ Asks args c)
    ∧ ∀ e, parseArgs args = .error e → e = .valueError ∨ e = .indexError ∧ args.length < 5 := by
  by_cases hl : args.length < 5
  · obtain ⟨e, he, h'⟩ := parseArgs_short hl
    rw [he]
    refine ⟨fun c => ⟨nofun, ?_⟩, fun e' h => ?_⟩
    · rintro ⟨_, _, _, _, rfl, -⟩
      simp only [List.length_cons] at hl
      omega
    · cases h
      rcases h' with h' | h'
      · exact .inl h'
      · exact .inr ⟨h', hl⟩
  · obtain ⟨a, b, e, m, o, rest, rfl⟩ := five_args hl
    rw [parseArgs_five]
    constructor
    · intro c
      constructor
      · intro h
        simp only [bind, Except.bind, pure, Except.pure] at h
        split at h
        · cases h
        rename_i k hk
        split at h
        · cases h
        rename_i g hg
        split at h
        · cases h
        rename_i z hz
        cases h
        obtain ⟨g', hg', rfl⟩ := pyFloatArg_ok.1 hg
        exact ⟨b, e, m, rest, rfl, ⟨k, pyIntArg_ok.1 hk, by simp⟩, ⟨g', hg', rfl⟩, pyIntArg_ok.1 hz⟩
      · rintro ⟨_, _, _, _, h, ⟨k, h1, h2⟩, ⟨g, h3, h4⟩, h5⟩
        simp only [List.cons.injEq] at h
        obtain ⟨rfl, rfl, rfl, rfl, rfl, rfl⟩ := h
        simp only [pyIntArg_ok.2 h1, pyFloatArg_ok.2 ⟨g, h3, rfl⟩, pyIntArg_ok.2 h5, bind, Except.bind,
          pure, Except.pure, ← h4]
        congr 1
        cases c
        simp only [CmdLine.mk.injEq, and_true, true_and]
        simp only at h2
        rw [Bool.eq_iff_iff, h2]
        simp
    · intro e' h
      simp only [bind, Except.bind, pure, Except.pure] at h
      left
      split at h
      · rename_i hk
        cases h
        exact pyIntArg_err hk
      split at h
      · rename_i hk
        cases h
        exact pyFloatArg_err hk
      split at h
      · rename_i hk
        cases h
        exact pyIntArg_err hk
      · cases h

/-! ## The disk -/

/-- Folders after the call: the ones before, and possibly the one for the results with its parents. -/
def FoldersMade (out : Txt) (d d' : Disk) : Prop :=
  d'.folders = d.folders ∨ d'.folders = d.folders ++ parents out ++ [out]

theorem makeFolder_frame {out : Txt} {d d' : Disk} (h : makeFolder out d = some d') :
    d'.files = d.files ∧ FoldersMade out d d' := by
  unfold makeFolder at h
  split_ifs at h
  · cases h; exact ⟨rfl, .inl rfl⟩
  · cases h; exact ⟨rfl, .inr rfl⟩

theorem log_frame (d : Disk) (path : Txt) (iter : Option Txt) :
    (match iter with | some t => d.write path t | none => d).folders = d.folders
    ∧ ∀ p ≠ path, (match iter with | some t => d.write path t | none => d).files p = d.files p := by
  cases iter with
  | none => exact ⟨rfl, fun _ _ => rfl⟩
  | some t => exact ⟨rfl, fun p hp => if_neg hp⟩

/-- Only methods 1 and 2 end with a row. -/
theorem mainRow_method {env : Env} {location : Txt} {I : Inst} {m : ℤ} {rounds fuel : ℕ} {total : ℚ}
    {row : List Cell} (h : mainRow env location I m.toNat rounds fuel total = .ok row) : m = 1 ∨ m = 2 := by
  by_contra hne
  by_cases h34 : m.toNat = 3 ∨ m.toNat = 4
  · exact (C62_counterexample env location I _ rounds fuel total h34).2.2 row h
  · unfold mainRow mainRowWith at h
    rw [if_neg (by omega), if_neg h34] at h
    cases h

theorem mainRow_shape {env : Env} {location : Txt} {I : Inst} {m rounds fuel : ℕ} {total : ℚ}
    {row : List Cell} (hm : m = 1 ∨ m = 2) (h : mainRow env location I m rounds fuel total = .ok row) :
    (∃ cs, row = .text (fileName location) :: cs) ∧ ∃ vals, readExperiment (some row) = .ok vals := by
  rw [(C62_partial env location I m rounds fuel total hm).2] at h
  cases hs : milpSolve env I 3600 (1 / 10000) true (if m = 1 then "song" else "belotti") with
  | error e => rw [hs] at h; cases h
  | ok st =>
    rw [hs] at h
    change milpRow _ _ _ _ _ _ = _ at h
    obtain ⟨t, g, b, -, -, -, hv⟩ := milpRow_vals h
    refine ⟨?_, _, hv⟩
    simp only [milpRow, computationDetails, bind, Except.bind, pure, Except.pure, throw, throwThe,
      MonadExceptOf.throw] at h
    split at h
    · cases h
    rename_i p hp
    split at h
    · cases h
    cases h
    split_ifs at hp
    · cases hp' : computeGap (st.vUB : WithTop ℚ) (st.vLB : WithBot ℚ) false with
      | error e => rw [hp'] at hp; cases hp
      | ok g => rw [hp'] at hp; cases hp; exact ⟨_, rfl⟩
    · cases hp' : computeGap (st.vUB : WithTop ℚ) (st.vLB : WithBot ℚ) false with
      | error e => rw [hp'] at hp; cases hp
      | ok g => rw [hp'] at hp; cases hp; exact ⟨_, rfl⟩

theorem callMethod_frame (sh : Cell → Txt) (ω : Circ) (iter : Option Txt) (c : CmdLine) (eps : ℚ) (I : Inst)
    (d : Disk) : (callMethod sh ω iter c eps I d).2.folders = d.folders
    ∧ ∀ p, (callMethod sh ω iter c eps I d).2.files p ≠ d.files p →
      (c.method = 1 ∨ c.method = 2) ∧ (p = callPath c.out c.location eps c.cont c.method
        ∨ p = callIterPath c.out c.location eps c.cont c.method) := by
  unfold callMethod
  simp only
  cases hr : mainRow ω.env c.location I c.method.toNat ω.rounds ω.fuel ω.total with
  | error e =>
    simp only
    split_ifs with hm
    · obtain ⟨h1, h2⟩ := log_frame d (callIterPath c.out c.location eps c.cont c.method) iter
      refine ⟨h1, fun p hp => ⟨hm, .inr ?_⟩⟩
      by_contra hne
      exact hp (h2 p hne)
    · exact ⟨rfl, fun p hp => absurd rfl hp⟩
  | ok row =>
    by_cases hm : c.method = 1 ∨ c.method = 2
    · simp only [if_pos hm]
      obtain ⟨h1, h2⟩ := log_frame d (callIterPath c.out c.location eps c.cont c.method) iter
      refine ⟨h1, fun p hp => ⟨hm, ?_⟩⟩
      by_contra hne
      rw [not_or] at hne
      refine hp ((if_neg hne.1).trans (h2 p hne.2))
    · exact absurd (mainRow_method hr) hm

/-- **C100 (only its own files).**  Whatever the arguments, the instance, Gurobi and the clock: a call of
main.py changes no file but `<prefix><instance>-<percent>-<kind>-<method>.csv` and the same with `-iter`, and these only
for methods 1 and 2; it creates no folder but the prefix and its parents; if the arguments are not accepted
the disk stays as it is. -/
theorem C100_files (sh : Cell → Txt) (ω : Circ) (iter : Option Txt) (args : List Txt) (d : Disk) :
    ((¬ ∃ c, Asks args c) → (callMain sh ω iter args d).2 = d
      ∧ ∃ e, (callMain sh ω iter args d).1 = .error (.py e) ∧ (e = .valueError ∨ e = .indexError))
    ∧ ∀ c, Asks args c → FoldersMade c.out d (callMain sh ω iter args d).2
      ∧ ∀ p, (callMain sh ω iter args d).2.files p ≠ d.files p → ∃ eps, c.eps = .fin eps
        ∧ (c.method = 1 ∨ c.method = 2) ∧ (p = callPath c.out c.location eps c.cont c.method
          ∨ p = callIterPath c.out c.location eps c.cont c.method) := by
  obtain ⟨hok, herr⟩ := C100_arguments args
  constructor
  · intro hno
    unfold callMain
    cases hp : parseArgs args with
    | error e =>
      refine ⟨rfl, e, rfl, ?_⟩
      rcases herr e hp with h | h
      · exact .inl h
      · exact .inr h.1
    | ok c => exact absurd ⟨c, (hok c).1 hp⟩ hno
  · intro c hc
    unfold callMain
    rw [(hok c).2 hc]
    simp only
    cases hm : makeFolder c.out d with
    | none => exact ⟨.inl rfl, fun p hp => absurd rfl hp⟩
    | some d' =>
      obtain ⟨h1, h2⟩ := makeFolder_frame hm
      have same : FoldersMade c.out d d' ∧ ∀ p, d'.files p ≠ d.files p → ∃ eps, c.eps = .fin eps
        ∧ (c.method = 1 ∨ c.method = 2) ∧ (p = callPath c.out c.location eps c.cont c.method
          ∨ p = callIterPath c.out c.location eps c.cont c.method) :=
        ⟨h2, fun p hp => absurd (congrFun h1 p) hp⟩
      simp only
      split
      · exact same
      · rename_i t eps ht he
        split
        · exact same
        · rename_i I hI
          obtain ⟨f1, f2⟩ := callMethod_frame sh ω iter c eps I d'
          refine ⟨?_, fun p hp => ⟨eps, he, f2 p fun h => hp (h.trans (congrFun h1 p))⟩⟩
          unfold FoldersMade at h2 ⊢
          rw [f1]
          exact h2
      · exact same

theorem callIterPath_ne (out location : Txt) (eps : ℚ) (cont : Bool) (method : ℤ) :
    callPath out location eps cont method ≠ callIterPath out location eps cont method := by
  unfold callPath callIterPath
  intro h
  have := congrArg List.length h
  simp at this

/-- **C100 (success).**  A call that ends without exception ran method 1 or 2 on the instance in the file named by
the first argument, with the kind of variables and the risk level of the arguments, and left the row
as a csv file under the name built from the arguments; `read_single_experiment` reads it as the values of
the row in double precision. -/
theorem C100_success (sh : Cell → Txt) (ω : Circ) (iter : Option Txt) (args : List Txt) (d : Disk)
    (h : (callMain sh ω iter args d).1 = .ok ()) :
    ∃ c eps t I row, Asks args c ∧ c.eps = .fin eps ∧ (c.method = 1 ∨ c.method = 2)
      ∧ d.files c.location = some t ∧ readInstance t c.cont eps = .ok I
      ∧ mainRow ω.env c.location I c.method.toNat ω.rounds ω.fuel ω.total = .ok row
      ∧ (callMain sh ω iter args d).2.files (callPath c.out c.location eps c.cont c.method)
        = some (csvWrite [row.map sh])
      ∧ ((∀ x ∈ row, CellShows x (sh x)) → '\r' ∉ fileName c.location →
        ∃ vals, readExperiment (some row) = .ok vals
        ∧ textExperiment (csvWrite [row.map sh]) = .ok (vals.map rdVal)) := by
  obtain ⟨hok, -⟩ := C100_arguments args
  unfold callMain at h ⊢
  cases hp : parseArgs args with
  | error e => rw [hp] at h; cases h
  | ok c =>
    rw [hp] at h
    simp only at h ⊢
    cases hm : makeFolder c.out d with
    | none => rw [hm] at h; cases h
    | some d' =>
      obtain ⟨f1, f2⟩ := makeFolder_frame hm
      rw [hm] at h
      simp only at h ⊢
      split at h
      · cases h
      · rename_i t eps ht he
        cases hI : readInstance t c.cont eps with
        | error e => rw [hI] at h; cases h
        | ok I =>
          rw [hI] at h
          simp only at h
          unfold callMethod at h
          simp only at h
          cases hr : mainRow ω.env c.location I c.method.toNat ω.rounds ω.fuel ω.total with
          | error e => rw [hr] at h; cases h
          | ok row =>
            have hm := mainRow_method hr
            obtain ⟨⟨cs, hcs⟩, vals, hv⟩ := mainRow_shape (by omega) hr
            refine ⟨c, eps, t, I, row, (hok c).1 hp, he, hm, by rw [← f1]; exact ht, hI, hr, ?_, ?_⟩
            · dsimp only
              unfold callMethod
              simp only [hr, if_pos hm]
              exact if_pos rfl
            · intro hsh hn
              refine ⟨vals, hv, ?_⟩
              rw [hcs] at hv hsh ⊢
              have e1 : CellShows (.text (fileName c.location)) (sh (.text (fileName c.location))) :=
                hsh _ (by simp)
              change sh _ = _ at e1
              rw [List.map_cons, e1]
              refine C99_results hn ?_ hv
              rw [List.forall₂_map_right_iff, List.forall₂_same]
              exact fun x hx => hsh x (by simp [hx])
      · cases h

/-- **C100 (unknown method).**  With a method other than 1, 2, 3, 4 the program writes no file; it raises
`NameError`, but only after the folder has been made and the instance read. -/
theorem C100_unknown_method (sh : Cell → Txt) (ω : Circ) (iter : Option Txt) (args : List Txt) (d : Disk)
    (c : CmdLine) (hc : Asks args c) (hm : c.method ∉ ({1, 2, 3, 4} : Set ℤ)) :
    (callMain sh ω iter args d).2.files = d.files
    ∧ ∀ d' eps t I, makeFolder c.out d = some d' → d.files c.location = some t → c.eps = .fin eps →
      readInstance t c.cont eps = .ok I →
      callMain sh ω iter args d = (.error (.py .unboundLocalError), d') := by
  have hm' : c.method ≠ 1 ∧ c.method ≠ 2 ∧ c.method ≠ 3 ∧ c.method ≠ 4 := by
    simpa only [Set.mem_insert_iff, Set.mem_singleton_iff, not_or] using hm
  constructor
  · funext p
    by_contra hne
    obtain ⟨_, -, h, -⟩ := ((C100_files sh ω iter args d).2 c hc).2 p hne
    omega
  · intro d' eps t I h1 h2 h3 h4
    obtain ⟨f1, -⟩ := makeFolder_frame h1
    unfold callMain
    rw [((C100_arguments args).1 c).2 hc]
    simp only [h1, f1, h2, h3, h4]
    unfold callMethod
    have hr : mainRow ω.env c.location I c.method.toNat ω.rounds ω.fuel ω.total
        = .error .unboundLocalError := by
      unfold mainRow mainRowWith
      rw [if_neg (show ¬ (c.method.toNat = 1 ∨ c.method.toNat = 2) by omega),
        if_neg (show ¬ (c.method.toNat = 3 ∨ c.method.toNat = 4) by omega)]
    simp only [hr, if_neg (show ¬ (c.method = 1 ∨ c.method = 2) by omega)]

/-! ## Names and the script -/

/-- The name is the one of C63 and C74, which the exporter looks for. -/
theorem callPath_main {out location : Txt} {eps : ℚ} (h : 0 ≤ eps) (cont : Bool) (m : ℕ) :
    callPath out location eps cont m = mainPath out location eps cont m := by
  unfold callPath callStem mainPath intText
  rw [rd_eq (by positivity), if_neg (show ¬ ((m : ℤ) < 0) by omega)]
  simp

theorem toDigits_numeral (n : ℕ) : ∃ k, Numeral (Nat.toDigits 10 n) n k := by
  induction n using Nat.strong_induction_on with
  | _ n ih =>
    by_cases h : n < 10
    · rw [Nat.toDigits_of_lt_base h]
      exact ⟨1, .one n h⟩
    · obtain ⟨k, hk⟩ := ih (n / 10) (by omega)
      rw [Nat.toDigits_of_base_le (by norm_num) (by omega)]
      have := hk.next (n % 10) (Nat.mod_lt _ (by norm_num))
      rw [Nat.div_add_mod] at this
      exact ⟨_, this⟩

theorem toDigits_intText (n : ℕ) : IntText (Nat.toDigits 10 n) n := by
  obtain ⟨k, hk⟩ := toDigits_numeral n
  exact ⟨[], _, [], nofun, nofun, by simp, .none hk⟩

/-- **C100 (run_all_experiments.sh).**  Every call of the script passes arguments that main.py reads as the
experiment: file, kind of variables, risk level (the double that the tables are made with), method and
folder; its row goes to the file of C63. -/
theorem C100_script (root : Txt) (e : Exp) (he : e ∈ allExps scriptPar) :
    ∃ eps ∈ [['0', '.', '1'], ['0', '.', '2']],
      parseArgs (scriptArgs (scriptIn root) (scriptOut root) eps e)
        = .ok ⟨instancePath (scriptIn root) e.name e.scen e.id, decide (e.cont = 1), .fin e.eps, e.method,
            scriptOut root⟩
      ∧ callPath (scriptOut root) (instancePath (scriptIn root) e.name e.scen e.id) e.eps (decide (e.cont = 1)) e.method
        = mainPath (scriptOut root) (instancePath (scriptIn root) e.name e.scen e.id) e.eps (decide (e.cont = 1)) e.method := by
  have heps : e.eps = fl64 (1 / 10) ∨ e.eps = fl64 (2 / 10) := by
    unfold allExps at he
    simp only [List.mem_flatMap, List.mem_map] at he
    obtain ⟨i, -, s, -, j, -, k, -, x, hx, m, -, rfl⟩ := he
    simpa [scriptPar] using hx
  have key : ∀ t q, floatOf t = some (.fin q) → e.eps = q → 0 ≤ q →
      parseArgs (scriptArgs (scriptIn root) (scriptOut root) t e)
        = .ok ⟨instancePath (scriptIn root) e.name e.scen e.id, decide (e.cont = 1), .fin e.eps, e.method,
            scriptOut root⟩
      ∧ callPath (scriptOut root) (instancePath (scriptIn root) e.name e.scen e.id) e.eps (decide (e.cont = 1)) e.method
        = mainPath (scriptOut root) (instancePath (scriptIn root) e.name e.scen e.id) e.eps (decide (e.cont = 1)) e.method := by
    intro t q ht hq h0
    refine ⟨((C100_arguments _).1 _).2 ⟨_, t, _, [], rfl, ⟨_, toDigits_intText e.cont, ?_⟩, ?_,
      toDigits_intText e.method⟩, callPath_main (hq ▸ h0) _ _⟩
    · simp
    · obtain ⟨g, h1, h2⟩ := (floatOf_iff _ _).1 ht
      exact ⟨g, h1, by rw [hq]; exact h2⟩
  rcases heps with h | h
  · exact ⟨['0', '.', '1'], by simp, key _ _ (by decide +kernel) h (by decide +kernel)⟩
  · exact ⟨['0', '.', '2'], by simp, key _ _ (by decide +kernel) h (by decide +kernel)⟩

theorem not_mem_stem {t : Txt} {c : Char} (h : c ∉ t) : c ∉ stem t := by
  unfold stem
  split
  · exact h
  · rename_i r e
    split_ifs
    · exact h
    · intro hc
      apply h
      rw [← List.mem_reverse]
      refine (List.dropWhile_sublist (fun c => c != '.')).subset ?_
      rw [e]
      exact List.mem_cons_of_mem _ (List.mem_reverse.1 hc)

theorem slash_fileName (location : Txt) : '/' ∉ fileName location := by
  refine not_mem_stem ?_
  unfold baseName
  intro h
  have := List.mem_takeWhile_imp (List.mem_reverse.1 h)
  simp at this

/-- **C100 (no slash).**  If the last argument does not end with a slash, the results are not in the folder that
main.py creates. -/
theorem C100_no_slash (out location : Txt) (eps : ℚ) (cont : Bool) (m : ℤ) (r : Txt) :
    callPath out location eps cont m ≠ out ++ '/' :: r
    ∧ callIterPath out location eps cont m ≠ out ++ '/' :: r := by
  have key : ∀ s : Txt, callStem out location eps cont m ++ s ≠ out ++ '/' :: r := by
    intro s h
    unfold callStem at h
    simp only [List.append_assoc] at h
    have h := List.append_cancel_left h
    cases hf : fileName location with
    | nil => rw [hf] at h; simp at h
    | cons a l =>
      rw [hf, List.cons_append, List.cons.injEq] at h
      exact slash_fileName location (by rw [hf, h.1]; simp)
  exact ⟨key _, key _⟩

/-! ## Examples -/

/-- The instance `exMilp` as a csv file. -/
def exMilpText : Txt :=
  "2,2,4\r\n1,2\r\n0.1,0.4\r\n0.3,0.6\r\n0.2,0.5\r\n0.4,0.7\r\n0.3,0.6\r\n0.5,0.8\r\n0.4,0.7\r\n0.6,0.9\r\n1.3,1.3\r\n".toList

/-- A disk with this file and no folder. -/
def exDisk : Disk := ⟨fun p => if p = "d/i.csv".toList then some exMilpText else none, []⟩

/-- Cells as they are, numbers with three decimals. -/
def exSh : Cell → Txt
  | .text t => t
  | .flt q => fixed 3 q

/-- Arguments in unusual notations: binary variables, risk level 1/4, method 1. -/
def exArgs (method out : Txt) : List Txt := ["d/i.csv".toList, " 0_2\n".toList, "+2.5E-1".toList, method, out]

/-- The call writes its two files; the row is read back. -/
example : (match callMain exSh ⟨exactEnv exNorm 1, 10, 10, 1⟩ (some ['h']) (exArgs ['1'] ['r', '/']) exDisk with
      | (.ok (), d) => some (d.files "r/i-25-0-1-iter.csv".toList,
          (d.files "r/i-25-0-1.csv".toList).map fun t => match textExperiment t with
            | .ok v => v.length
            | .error _ => 0, d.folders)
      | _ => none) = some (some ['h'], some 15, [['r'], ['r', '/']]) := by
  decide +kernel

/-- The arguments ask for this. -/
example : Asks (exArgs ['1'] ['r', '/']) ⟨"d/i.csv".toList, false, .fin (1 / 4), 1, ['r', '/']⟩ := by
  rw [← (C100_arguments _).1]
  decide +kernel

/-- Without the slash the file is next to the folder; with method 5 there is none, but the folder is made. -/
example : (match callMain exSh ⟨exactEnv exNorm 1, 10, 10, 1⟩ none (exArgs ['1'] ['r']) exDisk with
      | (.ok (), d) => some ((d.files "ri-25-0-1.csv".toList).isSome, d.folders)
      | _ => none) = some (true, [['r']])
    ∧ (match callMain exSh ⟨exactEnv exNorm 1, 10, 10, 1⟩ none (exArgs ['5'] ['r']) exDisk with
      | (.error (.py e), d) => some (e, (d.files "ri-25-0-5.csv".toList).isSome, d.folders)
      | _ => none) = some (.unboundLocalError, false, [['r']])
    ∧ (match callMain exSh ⟨exactEnv exNorm 1, 10, 10, 1⟩ none (exArgs ['x'] ['r']) exDisk with
      | (.error (.py e), d) => some (e, d.folders)
      | _ => none) = some (.valueError, []) := by
  decide +kernel

end Verif.Props
