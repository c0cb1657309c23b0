import Verif.Model.Generator
import Verif.Props.Rows

/-!
# C72, C74: generated instances and the names of files
-/

namespace Verif.Props

open Spec Model

/-! ## C72 -/

/-- The layout of an OR-library file: sizes `n` and `m` (and the best known value), objective, `m`
rows, right-hand side, with `n` or `m` numbers each. -/
structure OrLib (file : List (List ℚ)) (n m : ℕ) (c b : Vec) : Prop where
  sizes : ∃ rest, file[0]? = some ((n : ℚ) :: (m : ℚ) :: rest)
  obj : ∃ r, file[1]? = some r ∧ r.length = n ∧ ∀ j < n, r[j]? = some (c j)
  rows : ∀ i < m, ∃ r, file[2 + i]? = some r ∧ r.length = n
  rhs : ∃ r, file[2 + m]? = some r ∧ r.length = m ∧ ∀ i < m, r[i]? = some (b i)

theorem row_eq {r : List ℚ} {n : ℕ} {c : Vec} (hl : r.length = n) (h : ∀ j < n, r[j]? = some (c j)) :
    r = (List.range n).map c := by
  refine List.ext_getElem? fun j => ?_
  by_cases hj : j < n
  · rw [h j hj]; simp [hj]
  · rw [List.getElem?_eq_none (by omega), List.getElem?_eq_none (by simp; omega)]

theorem generate_ok {file : List (List ℚ)} {n m : ℕ} {c b : Vec} (h : OrLib file n m c b)
    (N K : ℕ) (d : Draws) :
    generate file N K d = .ok ((List.range' 1 K).map fun k => (genName n m N k,
      generatedRows n m N c (fun s i j => genEntry (d.normal k i j s) (d.fails k j s)) b)) := by
  obtain ⟨rest, h0⟩ := h.sizes
  obtain ⟨rc, h1, hc, hc'⟩ := h.obj
  obtain ⟨rb, h2, hb, hb'⟩ := h.rhs
  have e0 : getRow file 0 = .ok ((n : ℚ) :: (m : ℚ) :: rest) := by unfold getRow; rw [h0]
  have e1 : getRow file 1 = .ok rc := by unfold getRow; rw [h1]
  have e2 : getRow file (2 + m) = .ok rb := by unfold getRow; rw [h2]
  have hn : sizeAt ((n : ℚ) :: (m : ℚ) :: rest) 0 = .ok n := by simp [sizeAt]
  have hm : sizeAt ((n : ℚ) :: (m : ℚ) :: rest) 1 = .ok m := by simp [sizeAt]
  have hrows : ∀ r ∈ (file.drop 2).take m, r.length = n := by
    intro r hr
    obtain ⟨i, hi⟩ := List.mem_iff_getElem?.1 hr
    have him : i < m := by
      by_contra hc
      rw [List.getElem?_take_eq_none (by omega)] at hi
      cases hi
    rw [List.getElem?_take_of_lt him, List.getElem?_drop] at hi
    obtain ⟨r', hr', hl⟩ := h.rows i him
    rw [hr'] at hi
    cases hi
    exact hl
  have hhead : 0 < m → (((file.drop 2).take m).headD []).length = n := by
    intro hm
    obtain ⟨r', hr', hl⟩ := h.rows 0 hm
    have : ((file.drop 2).take m)[0]? = some r' := by
      rw [List.getElem?_take_of_lt hm, List.getElem?_drop]; exact hr'
    rw [List.headD_eq_head?_getD, List.head?_eq_getElem?, this]
    exact hl
  have heq : ∀ r ∈ (file.drop 2).take m, r.length = (((file.drop 2).take m).headD []).length := by
    intro r hr
    have hm : 0 < m := by
      rcases Nat.eq_zero_or_pos m with rfl | h
      · simp at hr
      · exact h
    rw [hrows r hr, hhead hm]
  have hK : ¬ (0 < K ∧ 0 < m ∧ (((file.drop 2).take m).headD []).length < n) := by
    rintro ⟨-, hm, h⟩
    rw [hhead hm] at h
    omega
  unfold generate
  simp only [e0, e1, e2, hn, hm, bind, Except.bind, pure, Except.pure, if_neg hK,
    if_neg (not_not.2 heq)]
  rw [row_eq hc hc', row_eq hb hb']
  rfl

/-- What the generator may write for a drawn value: zero for a failed item or a negative draw,
otherwise the draw rounded to four decimals. -/
def Written (x : ℚ) (fail : Bool) (a : ℚ) : Prop :=
  0 ≤ a ∧ if fail ∨ x < 0 then a = 0 else |a - x| ≤ 1 / 20000

theorem round4_near (x : ℚ) : |round4 x - x| ≤ 1 / 20000 := by
  have h := abs_le.1 (rint_spec (x * 10000))
  unfold round4
  rw [abs_le]
  constructor <;> linarith [h.1, h.2]

theorem genEntry_written (x : ℚ) (fail : Bool) : Written x fail (genEntry x fail) := by
  have r0 : round4 0 = 0 := by decide +kernel
  cases fail with
  | true => simp [Written, genEntry, r0]
  | false =>
    by_cases hx : x < 0
    · simp [Written, genEntry, hx, r0]
    · have hg : genEntry x false = round4 x := by simp [genEntry, hx]
      refine ⟨?_, ?_⟩
      · rw [hg]
        have : (0 : ℤ) ≤ rint (x * 10000) := rint_nonneg (by linarith [not_lt.1 hx])
        have : (0 : ℚ) ≤ rint (x * 10000) := by exact_mod_cast this
        unfold round4
        positivity
      · rw [if_neg (by simp [hx]), hg]
        exact round4_near x

/-- **C72.** From an OR-library file the generator writes as many files as asked for, whatever is
drawn; file `k` is the one run_all_experiments.sh names, and read by `ChanceKnapInstance` it gives an
instance of the announced sizes, whose data are the file's objective and capacities and the draws
as written, rounded to one decimal.  With non-negative objective and capacities all data are
non-negative. -/
theorem C72_generated_instances {file : List (List ℚ)} {n m : ℕ} {c b : Vec}
    (h : OrLib file n m c b) (N K : ℕ) (hN : 0 < N) (d : Draws) (cont : Bool) (eps : ℚ) :
    ∃ files, generate file N K d = .ok files ∧ files.length = K
      ∧ ∀ k < K, ∃ rows I, files[k]? = some (instancePath [] (['c', 'c', 'm', 'k', 'n', 'a', 'p', '-']
            ++ Nat.toDigits 10 n ++ ['-'] ++ Nat.toDigits 10 m) N (k + 1), rows)
        ∧ parse rows cont eps = .ok I
        ∧ I.n = n ∧ I.m = m ∧ I.N = N ∧ I.cont = cont ∧ I.eps = eps ∧ Equi I
        ∧ (∀ j < n, |I.c j - c j| ≤ 1 / 20) ∧ (∀ s < N, ∀ i < m, |I.b s i - b i| ≤ 1 / 20)
        ∧ (∀ s < N, ∀ i < m, ∀ j < n, ∃ a,
            Written (d.normal (k + 1) i j s) (d.fails (k + 1) j s) a ∧ |I.A s i j - a| ≤ 1 / 20)
        ∧ ((∀ i < m, 0 ≤ b i) → NonnegAb I) ∧ ((∀ j < n, 0 ≤ c j) → NonnegC I) := by
  refine ⟨_, generate_ok h N K d, by simp, fun k hk => ?_⟩
  obtain ⟨I, hI, e1, e2, e3, e4, e5, e6, e7, e8, e9⟩ := C04_parse_generated n m N hN c
    (fun s i j => genEntry (d.normal (k + 1) i j s) (d.fails (k + 1) j s)) b cont eps
  refine ⟨_, I, ?_, hI, e1, e2, e3, e4, e5, e6, ?_, ?_, ?_, ?_, ?_⟩
  · rw [List.getElem?_map, List.getElem?_range' hk]
    have hname : genName n m N (k + 1) = instancePath [] (['c', 'c', 'm', 'k', 'n', 'a', 'p', '-']
            ++ Nat.toDigits 10 n ++ ['-'] ++ Nat.toDigits 10 m) N (k + 1) := by
      simp [genName, instancePath]
    have hk1 : 1 + 1 * k = k + 1 := by omega
    rw [← hname, hk1]
    rfl
  · intro j hj
    rw [e7 j hj]
    exact (C05_round1 _).2.1
  · intro s hs i hi
    rw [e9 s hs i hi]
    exact (C05_round1 _).2.1
  · intro s hs i hi j hj
    refine ⟨_, genEntry_written _ _, ?_⟩
    rw [e8 s hs i hi j hj]
    exact (C05_round1 _).2.1
  · intro hb s hs i hi
    rw [e3] at hs
    rw [e2] at hi
    refine ⟨?_, fun j hj => ?_⟩
    · rw [e9 s hs i hi]; exact (C05_round1 _).2.2.2.2.1 (hb i hi)
    · rw [e1] at hj
      rw [e8 s hs i hi j hj]; exact (C05_round1 _).2.2.2.2.1 (genEntry_written _ _).1
  · intro hc j hj
    rw [e1] at hj
    rw [e7 j hj]; exact (C05_round1 _).2.2.2.2.1 (hc j hj)

/-- **C72**, from the OR-library file to the end of a run: on every generated instance read with
binary variables the adaptive solver stops with certified solutions, if `epsilon * N` is a whole
number and the announced sizes are positive. -/
theorem C72_generated_certificates {file : List (List ℚ)} {n m : ℕ} {c b : Vec}
    (h : OrLib file n m c b) (hn : 0 < n) (hm : 0 < m) (hb : ∀ i < m, 0 ≤ b i)
    (hc : ∀ j < n, 0 ≤ c j) {N K : ℕ} (hN : 0 < N) (hN' : N < 10 ^ 7) {d : Draws}
    {files : List (Txt × List (List ℚ))} (hf : generate file N K d = .ok files)
    {eps : ℚ} {q : ℕ} (hq : eps * N = q) {f : Txt × List (List ℚ)} (hfm : f ∈ files)
    {env : Env} {cfg : Cfg} {rounds fuel : ℕ}
    (hsub : ∀ t k g, GResult.Exact g (env.sub t k g))
    (hcc : ∀ t g, GResult.Valid g (env.cc t g)) (hlb : ∀ t g, GResult.Valid g (env.lb t g))
    (hacc : ∀ t k g, GResult.Answers g (env.acc t k g))
    (hbig : ∀ t g, GResult.Answers g (env.big t g)) (hgap : cfg.gap < 1) :
    ∃ I, parse f.2 false eps = .ok I ∧ I.n = n ∧ I.m = m ∧ I.N = N
      ∧ ∀ (r : Except PyErr (Bool × Gap)) (s : St), run env cfg I rounds fuel = .ok (r, s) →
        (∀ p ∈ s.trace, (∀ y, Feas I y → (obj I y : WithTop ℚ) ≤ p.1)
          ∧ ∀ v : ℚ, p.2 = v → ∃ x, Feas I x ∧ obj I x = v)
        ∧ (∀ g, r = .ok (false, g) → g.le cfg.gap = true → ∃ x, s.xLB = some x ∧ Feas I x
            ∧ ∀ y, Feas I y → obj I y ≤ (1 + cfg.gap) * obj I x)
        ∧ (∀ g, r = .ok (true, g) → Tight env → ∃ x, s.xUB = some x ∧ s.xLB = some x ∧ Feas I x
            ∧ (∀ y, Feas I y → obj I y ≤ obj I x)
            ∧ s.vUB = (obj I x : WithTop ℚ) ∧ s.vLB = (obj I x : WithBot ℚ)) := by
  obtain ⟨files', hg, hl, hall⟩ := C72_generated_instances h N K hN d false eps
  rw [hf] at hg
  cases hg
  obtain ⟨k, hk⟩ := List.mem_iff_getElem?.1 hfm
  have hkK : k < K := by
    by_contra hc
    rw [List.getElem?_eq_none (by omega)] at hk
    cases hk
  obtain ⟨rows, I, h1, hI, e1, e2, e3, e4, e5, e6, -, -, -, hab, hcc'⟩ := hall k hkK
  rw [hk] at h1
  cases h1
  refine ⟨I, hI, e1, e2, e3, fun r s hrun => ?_⟩
  have hNq : (0 : ℚ) < N := by exact_mod_cast hN
  have heps : 0 ≤ eps := by
    by_contra hlt
    push Not at hlt
    have : eps * N < 0 := mul_neg_of_neg_of_pos hlt hNq
    rw [hq] at this
    have : (0 : ℚ) ≤ q := by positivity
    linarith
  have htol : TolOk I := by
    unfold TolOk
    rw [e3, e5, hq, Nat.floor_natCast, mul_add, mul_comm, hq]
    have : (N : ℚ) < 10 ^ 7 := by exact_mod_cast hN'
    have : (N : ℚ) * (1 / 10 ^ 7) < 1 := by rw [mul_one_div, div_lt_one (by norm_num)]; exact this
    linarith
  exact C69_parsed_binary_certificates _ eps I hI heps htol (hab hb) (hcc' hc) (by omega) (by omega)
    hsub hcc hlb hacc hbig hgap r s hrun

/-- A small file of the OR-library's layout. -/
def exOrLib : List (List ℚ) := [[3, 1, 12], [2, 2, 3], [4, 5, 6], [10]]

theorem exOrLib_ok : OrLib exOrLib 3 1 (fun j => if j = 2 then 3 else 2) fun _ => 10 where
  sizes := ⟨[12], by decide +kernel⟩
  obj := ⟨[2, 2, 3], by decide +kernel, by decide, by decide +kernel⟩
  rows := by
    intro i hi
    have : i = 0 := by omega
    subst this
    exact ⟨[4, 5, 6], by decide +kernel, by decide⟩
  rhs := ⟨[10], by decide +kernel, by decide, by decide +kernel⟩

/-- Two instances with two scenarios: draws that are negative or failed become zero. -/
example : (generate exOrLib 2 2 ⟨fun k i j s => (k : ℚ) * (s + 1) / 3 - j + i, fun k j s =>
      k = 1 ∧ j = 0 ∧ s = 1⟩).map (fun l => (l.map fun f => f.2.drop 2))
    = .ok [[[3333 / 10000, 0, 0], [0, 0, 0], [10]],
      [[6667 / 10000, 0, 0], [13333 / 10000, 3333 / 10000, 0], [10]]] := by
  decide +kernel

/-- A file with a row that is too short is refused. -/
example : (generate [[3, 1, 12], [2, 2, 3], [4, 5], [10]] 2 2 ⟨fun _ _ _ _ => 1, fun _ _ _ => false⟩)
    = .error .indexError := by
  decide +kernel

/-! ## C74 -/

theorem toDigits_inj {a b : ℕ} (h : Nat.toDigits 10 a = Nat.toDigits 10 b) : a = b := by
  have := congrArg (Nat.ofDigitChars 10 · 0) h
  simpa [Nat.ofDigitChars_ten_toDigits] using this

/-- A number can be split off a text at the next character that is no digit. -/
theorem digits_split {a b : ℕ} {x y : Txt} {ch : Char} (hch : ch.isDigit = false)
    (h : Nat.toDigits 10 a ++ ch :: x = Nat.toDigits 10 b ++ ch :: y) : a = b ∧ x = y := by
  have key : ∀ (k : ℕ) (z : Txt),
      (Nat.toDigits 10 k ++ ch :: z).takeWhile Char.isDigit = Nat.toDigits 10 k
      ∧ (Nat.toDigits 10 k ++ ch :: z).dropWhile Char.isDigit = ch :: z := by
    intro k z
    refine takeWhile_all (fun c hc => toDigits_isDigit k c hc) ?_
    intro c hc
    simp only [List.head?_cons, Option.mem_def, Option.some.injEq] at hc
    rw [← hc]; exact hch
  have h1 := (key a x).1
  rw [h, (key b y).1] at h1
  have h2 := (key a x).2
  rw [h, (key b y).2] at h2
  refine ⟨(toDigits_inj h1).symm, ?_⟩
  simpa using h2.symm

/-- **C74** (instances).  Instances of different sizes or numbers are written to different
files. -/
theorem C74_instance_names {n m N k n' m' N' k' : ℕ} (h : genName n m N k = genName n' m' N' k') :
    n = n' ∧ m = m' ∧ N = N' ∧ k = k' := by
  simp only [genName, List.append_assoc, List.cons_append, List.nil_append, List.cons.injEq,
    true_and] at h
  obtain ⟨e1, h⟩ := digits_split (ch := '-') rfl h
  obtain ⟨e2, h⟩ := digits_split (ch := '-') rfl h
  obtain ⟨e3, h⟩ := digits_split (ch := '-') rfl h
  obtain ⟨e4, -⟩ := digits_split (ch := '.') rfl h
  exact ⟨e1, e2, e3, e4⟩

/-- The percentages as main.py prints them. -/
theorem percent_printed : ∀ p : ℕ, p < 101 →
    fixed 0 (fl64 (fl64 ((p : ℚ) / 100) * 100)) = Nat.toDigits 10 p := by
  decide +kernel

/-- The instance file of an experiment. -/
abbrev knapName (n m : ℕ) : Txt :=
  ['c', 'c', 'm', 'k', 'n', 'a', 'p', '-'] ++ Nat.toDigits 10 n ++ ['-'] ++ Nat.toDigits 10 m

theorem knapName_slash (n m : ℕ) : '/' ∉ knapName n m := by
  have hdig : ∀ k, '/' ∉ Nat.toDigits 10 k := fun k h => by
    have := toDigits_isDigit k _ h
    simp at this
  simp [knapName, hdig]

/-- **C74** (results).  main.py writes different experiments (generated instance, whole percentage,
kind of variables, method) to different files. -/
theorem C74_result_names {out dir : Txt} (hd : dir = [] ∨ dir.getLast? = some '/')
    {n m N k p q n' m' N' k' p' q' : ℕ} {cont cont' : Bool} (hp : p ≤ 100) (hp' : p' ≤ 100)
    (h : mainPath out (instancePath dir (knapName n m) N k) (fl64 ((p : ℚ) / 100)) cont q
      = mainPath out (instancePath dir (knapName n' m') N' k') (fl64 ((p' : ℚ) / 100)) cont' q') :
    n = n' ∧ m = m' ∧ N = N' ∧ k = k' ∧ p = p' ∧ cont = cont' ∧ q = q' := by
  unfold mainPath at h
  rw [fileName_instance hd (knapName_slash n m), fileName_instance hd (knapName_slash n' m'),
    percent_printed p (by omega), percent_printed p' (by omega)] at h
  simp only [knapName, List.append_assoc, List.cons_append, List.nil_append,
    List.append_cancel_left_eq, List.cons.injEq, true_and] at h
  obtain ⟨e5, h⟩ := digits_split (ch := '-') rfl h
  obtain ⟨e6, h⟩ := digits_split (ch := '-') rfl h
  obtain ⟨e7, h⟩ := digits_split (ch := '-') rfl h
  obtain ⟨e8, h⟩ := digits_split (ch := '-') rfl h
  have hc : ∀ c : Bool, ∀ z : Txt, (if c = true then ['-', '1', '-'] else ['-', '0', '-']) ++ z
      = '-' :: (if c then '1' else '0') :: '-' :: z := by
    intro c z; cases c <;> rfl
  rw [hc, hc] at h
  obtain ⟨e9, h⟩ := digits_split (ch := '-') rfl h
  simp only [List.cons.injEq, true_and] at h
  obtain ⟨h1, h⟩ := h
  obtain ⟨e10, -⟩ := digits_split (ch := '.') rfl h
  refine ⟨e5, e6, e7, e8, e9, ?_, e10⟩
  cases cont <;> cases cont' <;> simp_all

/-- The names are those of the experiments. -/
example : mainPath ['r', '/'] (instancePath ['d', '/'] (knapName 10 10) 500 1) (fl64 (1 / 10)) true 1
    = "r/ccmknap-10-10-500-1-10-1-1.csv".toList := by
  decide +kernel

/-- The exporter does read the same file for two experiments: with risk levels 0.28 and 0.29. -/
example : exportPath [] (knapName 10 10) 500 1 (fl64 (28 / 100)) 0 1
    = exportPath [] (knapName 10 10) 500 1 (fl64 (29 / 100)) 0 1 := by
  decide +kernel

end Verif.Props
