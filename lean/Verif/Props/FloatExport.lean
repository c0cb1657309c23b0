import Verif.Model.FloatExport
import Verif.Lemmas.FloatRow
import Verif.Lemmas.PyNumber
import Verif.Props.Export
import Verif.Props.Tables
import Verif.Props.CsvText
import Verif.Props.FloatRow

/-!
# C110: the summary tables in double precision
-/

namespace Verif.Props

open Model

/-! ## Specification -/

/-- A row of doubles next to the numbers that are printed in a result file. -/
structure FlRowOk (row : List Val) (gap : WithTop ℚ) (time iter : ℚ) (adaptive : Prop) : Prop where
  gap : Back row 1 (roundDouble (ofTop gap))
  time : Back row 4 (.fin (rd time))
  iter : adaptive → Back row 6 (.fin (rd iter))

/-- `v` is the mean of the numbers `f j` up to rounding errors: infinite if one of them is, and otherwise
within `(3k+2)/2⁵³` of the mean of their absolute values, where `k` is their number. -/
def NearMean (ids : List ℕ) (f : ℕ → WithTop ℚ) (v : WithTop ℚ) : Prop :=
  (v = ⊤ ↔ ∃ j ∈ ids, f j = ⊤)
  ∧ ∀ q : ℕ → ℚ, (∀ j ∈ ids, f j = q j) → ∃ w : ℚ, v = w
    ∧ |w - mean ids q| ≤ (3 * ids.length + 2) / 2 ^ 53 * mean ids fun j => |q j|

/-! ## Sums -/

/-- One more addition. -/
theorem flSum_step {k : ℕ} (hk : k < 2 ^ 48) {S T B x : ℚ} (hB : |T| ≤ B)
    (h : |S - T| ≤ 3 * k / 2 ^ 53 * B) :
    |rd (S + rd x) - (T + x)| ≤ 3 * ((k + 1 : ℕ) : ℚ) / 2 ^ 53 * (B + |x|) := by
  have hk' : (k : ℚ) ≤ 2 ^ 48 := by exact_mod_cast hk.le
  have hB0 : 0 ≤ B := (abs_nonneg T).trans hB
  have h1 := rd_err x
  have h2 := rd_err (S + rd x)
  have hx := abs_nonneg x
  have e1 : 3 * (k : ℚ) / 2 ^ 53 * B ≤ 1 / 10 * B :=
    mul_le_mul_of_nonneg_right (by rw [div_le_iff₀ (by norm_num)]; linarith) hB0
  have h3 : |S + rd x| ≤ 11 / 10 * B + 11 / 10 * |x| := by
    have a1 := abs_add_le (S - T) T
    rw [sub_add_cancel] at a1
    have a2 := abs_add_le (rd x - x) x
    rw [sub_add_cancel] at a2
    have a3 := abs_add_le S (rd x)
    have a4 : ulp * |x| ≤ 1 / 10 * |x| := mul_le_mul_of_nonneg_right (by unfold ulp; norm_num) hx
    linarith
  have h4 : ulp * |S + rd x| ≤ ulp * (11 / 10 * B + 11 / 10 * |x|) :=
    mul_le_mul_of_nonneg_left h3 ulp_pos.le
  have h5 : |rd (S + rd x) - (T + x)| ≤ |rd (S + rd x) - (S + rd x)| + (|S - T| + |rd x - x|) := by
    have a1 := abs_add_le (rd (S + rd x) - (S + rd x)) ((S - T) + (rd x - x))
    have a2 := abs_add_le (S - T) (rd x - x)
    have e : rd (S + rd x) - (S + rd x) + (S - T + (rd x - x)) = rd (S + rd x) - (T + x) := by ring
    rw [e] at a1
    linarith
  have h6 : 0 ≤ 3 * (k : ℚ) / 2 ^ 53 * |x| := by positivity
  have h7 : 3 * ((k + 1 : ℕ) : ℚ) / 2 ^ 53 * (B + |x|)
      = 3 * (k : ℚ) / 2 ^ 53 * B + 3 * (k : ℚ) / 2 ^ 53 * |x| + 3 * ulp * (B + |x|) := by
    unfold ulp; push_cast; ring
  have hu := ulp_pos
  have h8 : 0 ≤ ulp * B := mul_nonneg hu.le hB0
  have h9 : 0 ≤ ulp * |x| := mul_nonneg hu.le hx
  rw [h7]
  linarith

theorem abs_sum_le (l : List ℕ) (q : ℕ → ℚ) : |(l.map q).sum| ≤ (l.map fun j => |q j|).sum := by
  induction l with
  | nil => simp
  | cons j l ih =>
    simp only [List.map_cons, List.sum_cons]
    exact (abs_add_le _ _).trans (by linarith)

/-- `S` is a sum of `k` numbers in doubles: infinite if one of them is. -/
def NearSum (ids : List ℕ) (f : ℕ → WithTop ℚ) (v : WithTop ℚ) : Prop :=
  (v = ⊤ ↔ ∃ j ∈ ids, f j = ⊤)
  ∧ ∀ q : ℕ → ℚ, (∀ j ∈ ids, f j = q j) → ∃ w : ℚ, v = w
    ∧ |w - (ids.map q).sum| ≤ 3 * ids.length / 2 ^ 53 * (ids.map fun j => |q j|).sum

theorem nearSum_nil (f : ℕ → WithTop ℚ) : NearSum [] f 0 :=
  ⟨by simp, fun q _ => ⟨0, rfl, by simp⟩⟩

/-- The next partial sum. -/
def flTopAdd (a b : WithTop ℚ) : WithTop ℚ :=
  match a, b with
  | ⊤, _ => ⊤
  | _, ⊤ => ⊤
  | (x : ℚ), (y : ℚ) => ((rd (x + rd y) : ℚ) : WithTop ℚ)

theorem flAdd_ofTop (a b : WithTop ℚ) : flAdd (ofTop a) (roundDouble (ofTop b)) = ofTop (flTopAdd a b) := by
  cases a with
  | top => cases b <;> rfl
  | coe a => cases b <;> rfl

theorem nearSum_snoc {l : List ℕ} (hl : l.length < 2 ^ 48) {f : ℕ → WithTop ℚ} {v : WithTop ℚ}
    (h : NearSum l f v) (j : ℕ) : NearSum (l ++ [j]) f (flTopAdd v (f j)) := by
  constructor
  · constructor
    · intro ht
      cases hv : v with
      | top =>
        obtain ⟨i, hi, hf⟩ := h.1.1 hv
        exact ⟨i, by simp [hi], hf⟩
      | coe x =>
        cases hj : f j with
        | top => exact ⟨j, by simp, hj⟩
        | coe y => rw [hv, hj] at ht; exact absurd ht WithTop.coe_ne_top
    · rintro ⟨i, hi, hf⟩
      rcases List.mem_append.1 hi with hi | hi
      · rw [h.1.2 ⟨i, hi, hf⟩]; rfl
      · rw [← List.mem_singleton.1 hi, hf]
        cases v <;> rfl
  · intro q hq
    obtain ⟨w, rfl, hw⟩ := h.2 q fun i hi => hq i (by simp [hi])
    have hj := hq j (by simp)
    refine ⟨rd (w + rd (q j)), by rw [hj]; rfl, ?_⟩
    have := flSum_step hl (abs_sum_le l q) hw (x := q j)
    simpa [List.sum_append] using this

theorem flMean_ofTop (n : ℕ) (a : WithTop ℚ) :
    flMean n (ofTop a) = ofTop (a.map fun x => rd (x / n)) := by
  cases a <;> rfl

theorem nearMean_of {ids : List ℕ} (hne : ids ≠ []) (hlen : ids.length ≤ 2 ^ 48) {f : ℕ → WithTop ℚ}
    {v : WithTop ℚ} (h : NearSum ids f v) : NearMean ids f (v.map fun x => rd (x / ids.length)) := by
  constructor
  · rw [← h.1]
    cases v <;> simp
  · intro q hq
    obtain ⟨w, rfl, hw⟩ := h.2 q hq
    refine ⟨rd (w / ids.length), rfl, ?_⟩
    unfold mean
    have hk : (0 : ℚ) < ids.length := by
      have : 0 < ids.length := List.length_pos_iff.2 hne
      exact_mod_cast this
    have hk' : (ids.length : ℚ) ≤ 2 ^ 48 := by exact_mod_cast hlen
    have hs := abs_sum_le ids q
    generalize (ids.map q).sum = T at *
    generalize (ids.map fun j => |q j|).sum = B at *
    generalize (ids.length : ℚ) = k at *
    have hB : 0 ≤ B := (abs_nonneg T).trans hs
    have h1 := rd_err (w / k)
    have h2 : |w / k - T / k| ≤ 3 * k / 2 ^ 53 * (B / k) := by
      rw [← sub_div, abs_div, abs_of_pos hk, ← mul_div_assoc]
      exact div_le_div_of_nonneg_right hw hk.le
    have h3 : |T / k| ≤ B / k := by
      rw [abs_div, abs_of_pos hk]
      exact div_le_div_of_nonneg_right hs hk.le
    have hBk : 0 ≤ B / k := div_nonneg hB hk.le
    have h4 : 3 * k / 2 ^ 53 * (B / k) ≤ 1 * (B / k) :=
      mul_le_mul_of_nonneg_right (by rw [div_le_iff₀ (by norm_num)]; linarith) hBk
    have h5 : |w / k| ≤ 2 * (B / k) := by
      have := abs_add_le (w / k - T / k) (T / k)
      rw [sub_add_cancel] at this
      linarith
    have h6 : ulp * |w / k| ≤ ulp * (2 * (B / k)) := mul_le_mul_of_nonneg_left h5 ulp_pos.le
    have h7 := abs_sub_le (rd (w / k)) (w / k) (T / k)
    have h8 : (3 * k + 2) / 2 ^ 53 * (B / k) = 3 * k / 2 ^ 53 * (B / k) + ulp * (2 * (B / k)) := by
      unfold ulp; ring
    rw [h8]
    linarith

/-! ## The loops -/

/-- The comparison with the required gap. -/
theorem fl_solved {g : WithTop ℚ} (hg : Milli g) {r : ℤ} (hr : |r| ≤ 10 ^ 9) {req : ℚ} (hreq : Near req r) :
    (roundDouble (ofTop g)).le (rd (req + fl64 (1 / 10 ^ 7))) = true
      ↔ g ≤ (((r : ℚ) / 1000 : ℚ) : WithTop ℚ) := by
  have hfl : fl64 (1 / 10 ^ 7) ≤ 11 / 10 ^ 8 ∧ 9 / 10 ^ 8 ≤ fl64 (1 / 10 ^ 7) := by decide +kernel
  obtain ⟨n1, n2⟩ := abs_le.1 hreq
  have hr' : |(r : ℚ)| ≤ 10 ^ 9 := by exact_mod_cast hr
  have hra := abs_le.1 hr'
  cases g with
  | top => simp [ofTop, roundDouble, Gap.le]
  | coe a =>
    obtain ⟨k, rfl⟩ := hg a rfl
    simp only [ofTop, roundDouble, Gap.le, decide_eq_true_eq]
    rw [WithTop.coe_le_coe]
    constructor
    · intro h
      by_contra hlt
      have hkr : (r : ℚ) + 1 ≤ k := by
        have h1 : (r : ℚ) < k := by
          by_contra h2
          exact hlt (by have := not_lt.1 h2; linarith)
        have h2 : r < k := by exact_mod_cast h1
        exact_mod_cast (by omega : r + 1 ≤ k)
      have h1 := rd_mono (show ((r : ℚ) + 1) / 1000 ≤ (k : ℚ) / 1000 by linarith)
      have h2 := (abs_le.1 (rd_near (q := ((r : ℚ) + 1) / 1000) (B := 2 * 10 ^ 6)
        (abs_le.2 ⟨by linarith, by linarith⟩))).1
      have h3 := (abs_le.1 (rd_near (q := req + fl64 (1 / 10 ^ 7)) (B := 2 * 10 ^ 6)
        (abs_le.2 ⟨by linarith, by linarith⟩))).2
      have := ulp_small
      linarith
    · intro h
      exact rd_mono (by linarith)

section
variable {results : List (List Val)} {ids : List ℕ} {gap : ℕ → WithTop ℚ} {time iter : ℕ → ℚ}

theorem flCountLoop_eq {required : ℚ}
    (h : ∀ j ∈ ids, ∃ row, results[j - 1]? = some row ∧ Back row 1 (roundDouble (ofTop (gap j))))
    (nb : ℕ) (all : Bool) :
    flCountLoop results required ids nb all
      = .ok (nb + ids.countP (fun j => (roundDouble (ofTop (gap j))).le (rd (required + fl64 (1 / 10 ^ 7)))),
             all && ids.all fun j =>
              (roundDouble (ofTop (gap j))).le (rd (required + fl64 (1 / 10 ^ 7)))) := by
  induction ids generalizing nb all with
  | nil => simp [flCountLoop]
  | cons j ids ih =>
    obtain ⟨row, hr, hb⟩ := h j (by simp)
    have ih' := fun n a => ih (fun i hi => h i (by simp [hi])) n a
    simp only [flCountLoop, pyGet, hr, backNum_of hb, bind, Except.bind]
    by_cases hc : (roundDouble (ofTop (gap j))).le (rd (required + fl64 (1 / 10 ^ 7))) = true
    · rw [if_pos hc, ih']
      simp only [List.countP_cons, List.all_cons, hc, if_true, Bool.true_and]
      congr 2
      omega
    · rw [if_neg hc, ih']
      simp only [List.countP_cons, List.all_cons, Bool.not_eq_true _ ▸ hc, Bool.false_and,
        Bool.and_false]
      simp

theorem flSumLoop_eq {all isPart : Bool} {f : ℕ → WithTop ℚ} {pre : List ℕ}
    (h : ∀ j ∈ ids, ∃ row, results[j - 1]? = some row
      ∧ Back row (if all then 4 else 1) (roundDouble (ofTop (f j)))
      ∧ (isPart = true → Back row 6 (.fin (rd (iter j)))))
    (hlen : pre.length + ids.length ≤ 2 ^ 48)
    {a : WithTop ℚ} (ha : NearSum pre f a) {b : Option (WithTop ℚ)}
    (hb : isPart = true → ∃ x, b = some x ∧ NearSum pre (fun j => (iter j : ℚ)) x) :
    ∃ a' b', flSumLoop results all isPart ids (ofTop a) (b.map ofTop) = .ok (ofTop a', b')
      ∧ NearSum (pre ++ ids) f a'
      ∧ (isPart = true → ∃ x, b' = some (ofTop x) ∧ NearSum (pre ++ ids) (fun j => (iter j : ℚ)) x)
      ∧ (isPart = false → b' = b.map ofTop) := by
  induction ids generalizing pre a b with
  | nil =>
    refine ⟨a, _, rfl, by simpa using ha, fun hp => ?_, fun _ => rfl⟩
    obtain ⟨x, rfl, hx⟩ := hb hp
    exact ⟨x, rfl, by simpa using hx⟩
  | cons j ids ih =>
    obtain ⟨row, hr, hf, hi⟩ := h j (by simp)
    have hl : pre.length < 2 ^ 48 := by simp at hlen; omega
    have ha' := nearSum_snoc hl ha j
    simp only [flSumLoop, pyGet, hr, backNum_of hf, bind, Except.bind, flAdd_ofTop]
    cases isPart with
    | false =>
      simp only [flAddIterations, Bool.false_eq_true, if_false]
      obtain ⟨a'', b', h1, h2, h3, h4⟩ := ih (pre := pre ++ [j]) (a := flTopAdd a (f j)) (b := b)
        (fun i hi => h i (by simp [hi])) (by simp at hlen ⊢; omega) ha' (by simp)
      exact ⟨a'', b', h1, by simpa using h2, by simp, fun _ => h4 rfl⟩
    | true =>
      obtain ⟨x, rfl, hx⟩ := hb rfl
      have hx' := nearSum_snoc hl hx j
      have e : flAdd (ofTop x) (.fin (rd (iter j))) = ofTop (flTopAdd x ((iter j : ℚ) : WithTop ℚ)) := by
        rw [← flAdd_ofTop]; rfl
      simp only [flAddIterations, if_true, backNum_of (hi rfl), bind, Except.bind, Option.map_some,
        pure, Except.pure, e]
      obtain ⟨a'', b', h1, h2, h3, h4⟩ := ih (pre := pre ++ [j]) (a := flTopAdd a (f j))
        (b := some (flTopAdd x ((iter j : ℚ) : WithTop ℚ)))
        (fun i hi => h i (by simp [hi])) (by simp at hlen ⊢; omega) ha' (fun _ => ⟨_, rfl, hx'⟩)
      exact ⟨a'', b', h1, by simpa using h2, by simpa using h3, by simp⟩

theorem flFormatMethod_of {m nb : ℕ} {milp part : List ℕ} {required : ℚ} {all : Bool} {a : Gap}
    {b : Option Gap} (hlen : ids.length ≠ 0)
    (hc : flCountLoop results required ids 0 true = .ok (nb, all))
    (hs : flSumLoop results all (decide (m ∈ part)) ids (.fin 0)
      (if m ∈ milp then none else some (.fin 0)) = .ok (a, b)) :
    flFormatMethod results m ids required milp part = .ok
      { time := if all then flMean ids.length a else .posInf
        nbSolved := nb
        gap := if all then .posInf else flMean ids.length a
        cells := .str (fmtFloat 2 (flMean ids.length a) ++
            (if all then ['s'] else ['\\', '%', '('] ++ Nat.toDigits 10 nb ++ [')']))
          :: (b.map fun x => Val.num (flMean ids.length x)).toList } := by
  unfold flFormatMethod
  simp only [hc, hs, bind, Except.bind, hlen, if_false, pure, Except.pure]

/-- **C110 (one method).**  `format_method` in double precision, on rows of doubles as they are read from the
text of result files: the number of solved instances is exactly that of the printed gaps, and the mean
time, mean gap and mean number of iterations are right up to the rounding errors of `NearMean`; the
means are printed with two decimals. -/
theorem C110_format {m : ℕ} {milp part : List ℕ} {r : ℤ} (hr : |r| ≤ 10 ^ 9) {req : ℚ} (hreq : Near req r)
    (hne : ids ≠ []) (hlen : ids.length ≤ 2 ^ 48)
    (hrow : ∀ j ∈ ids, ∃ row, results[j - 1]? = some row
      ∧ FlRowOk row (gap j) (time j) (iter j) (m ∈ part))
    (hm : ∀ j ∈ ids, Milli (gap j)) (hkind : m ∈ milp ↔ m ∉ part) :
    ∃ S T G, flFormatMethod results m ids req milp part = .ok S
      ∧ S.nbSolved = nbSolved ids ((r : ℚ) / 1000) gap ∧ S.time = ofTop T ∧ S.gap = ofTop G
      ∧ (AllSolved ids ((r : ℚ) / 1000) gap →
          NearMean ids (fun j => (time j : ℚ)) T ∧ G = ⊤
          ∧ ∃ t, S.cells[0]? = some (.str t) ∧ Shows t (ofTop T) ['s'])
      ∧ (¬ AllSolved ids ((r : ℚ) / 1000) gap →
          T = ⊤ ∧ NearMean ids gap G
          ∧ ∃ t, S.cells[0]? = some (.str t) ∧ Shows t (ofTop G)
              ("\\%(".toList ++ (toString (nbSolved ids ((r : ℚ) / 1000) gap)).toList ++ [')']))
      ∧ (m ∈ part → S.cells.length = 2
          ∧ ∃ v, S.cells[1]? = some (.num (ofTop v)) ∧ NearMean ids (fun j => (iter j : ℚ)) v)
      ∧ (m ∉ part → S.cells.length = 1) := by
  classical
  have hcount : ids.countP (fun j => (roundDouble (ofTop (gap j))).le (rd (req + fl64 (1 / 10 ^ 7))))
      = nbSolved ids ((r : ℚ) / 1000) gap := by
    unfold nbSolved
    apply List.countP_congr
    intro j hj
    rw [fl_solved (hm j hj) hr hreq]
    simp
  have hall : (ids.all fun j => (roundDouble (ofTop (gap j))).le (rd (req + fl64 (1 / 10 ^ 7)))) = true
      ↔ AllSolved ids ((r : ℚ) / 1000) gap := by
    rw [List.all_eq_true]
    exact forall₂_congr fun j hj => fl_solved (hm j hj) hr hreq
  have hc := flCountLoop_eq (required := req)
    (fun j hj => (hrow j hj).imp fun row h => ⟨h.1, h.2.gap⟩) 0 true
  rw [hcount, Nat.zero_add, Bool.true_and] at hc
  have hlen0 : ids.length ≠ 0 := by simpa using hne
  have hpart : decide (m ∈ part) = true ↔ m ∈ part := by simp
  have hstart : (if m ∈ milp then none else some (Gap.fin 0))
      = (if m ∈ part then some (0 : WithTop ℚ) else none).map ofTop := by
    by_cases h : m ∈ part
    · rw [if_pos h, if_neg (fun h' => hkind.1 h' h)]; rfl
    · rw [if_neg h, if_pos (hkind.2 h)]; rfl
  have hsome : decide (m ∈ part) = true → ∃ x, (if m ∈ part then some (0 : WithTop ℚ) else none) = some x
      ∧ NearSum [] (fun j => ((iter j : ℚ) : WithTop ℚ)) x :=
    fun h => ⟨0, by rw [if_pos (hpart.1 h)], nearSum_nil _⟩
  have htoS : ∀ n : ℕ, (toString n).toList = Nat.toDigits 10 n := fun n => by
    simp
  have hcells : ∀ {b' : Option Gap} {c : Val},
      (decide (m ∈ part) = true →
        ∃ x, b' = some (ofTop x) ∧ NearSum ([] ++ ids) (fun j => ((iter j : ℚ) : WithTop ℚ)) x) →
      (decide (m ∈ part) = false →
        b' = (if m ∈ part then some (0 : WithTop ℚ) else none).map ofTop) →
      (m ∈ part → (c :: (b'.map fun x => Val.num (flMean ids.length x)).toList).length = 2
        ∧ ∃ v, (c :: (b'.map fun x => Val.num (flMean ids.length x)).toList)[1]? = some (.num (ofTop v))
          ∧ NearMean ids (fun j => ((iter j : ℚ) : WithTop ℚ)) v)
      ∧ (m ∉ part → (c :: (b'.map fun x => Val.num (flMean ids.length x)).toList).length = 1) := by
    intro b' c h1 h2
    refine ⟨fun hp => ?_, fun hp => ?_⟩
    · obtain ⟨x, rfl, hx⟩ := h1 (hpart.2 hp)
      refine ⟨rfl, _, ?_, nearMean_of hne hlen (by simpa using hx)⟩
      rw [← flMean_ofTop]; rfl
    · rw [h2 (by simp [hp])]
      simp [hp]
  by_cases hA : AllSolved ids ((r : ℚ) / 1000) gap
  · rw [hall.2 hA] at hc
    obtain ⟨a', b', h1, h2, h3, h4⟩ := flSumLoop_eq (results := results) (ids := ids) (iter := iter)
      (all := true) (isPart := decide (m ∈ part)) (f := fun j => ((time j : ℚ) : WithTop ℚ)) (pre := [])
      (fun j hj => (hrow j hj).imp fun row h =>
        ⟨h.1, h.2.time, fun hp => h.2.iter (hpart.1 hp)⟩) (by simpa using hlen) (nearSum_nil _) hsome
    have hmean := nearMean_of hne hlen (by simpa using h2)
    refine ⟨_, a'.map fun x => rd (x / ids.length), ⊤,
      flFormatMethod_of hlen0 hc (by rw [hstart]; exact h1), rfl, flMean_ofTop _ _, rfl, ?_, ?_,
      (hcells h3 h4).1, (hcells h3 h4).2⟩
    · intro _
      refine ⟨hmean, rfl, _, rfl, ?_⟩
      rw [flMean_ofTop]
      exact shows_fmt _ _
    · exact fun h => absurd hA h
  · have hA' := Bool.eq_false_iff.2 (fun h => hA (hall.1 h))
    rw [hA'] at hc
    obtain ⟨a', b', h1, h2, h3, h4⟩ := flSumLoop_eq (results := results) (ids := ids) (iter := iter)
      (all := false) (isPart := decide (m ∈ part)) (f := gap) (pre := [])
      (fun j hj => (hrow j hj).imp fun row h =>
        ⟨h.1, h.2.gap, fun hp => h.2.iter (hpart.1 hp)⟩) (by simpa using hlen) (nearSum_nil _) hsome
    have hmean := nearMean_of hne hlen (by simpa using h2)
    refine ⟨_, ⊤, a'.map fun x => rd (x / ids.length),
      flFormatMethod_of hlen0 hc (by rw [hstart]; exact h1), rfl, rfl, flMean_ofTop _ _, ?_, ?_,
      (hcells h3 h4).1, (hcells h3 h4).2⟩
    · exact fun h => absurd h hA
    · intro _
      refine ⟨rfl, hmean, _, rfl, ?_⟩
      rw [flMean_ofTop, htoS]
      exact shows_fmt _ _

end

/-! ## The highlighted method -/

/-- `T` is a method's mean time in doubles (infinite if it left an instance unsolved) and `G` its mean gap
in doubles (infinite if a file is missing). -/
def NearData (d : MethodData) (ids : List ℕ) (required : ℚ) (T G : WithTop ℚ) : Prop :=
  (d.Solved ids required → NearMean ids (fun j => (d.time j : ℚ)) T)
  ∧ (¬ d.Solved ids required → T = ⊤)
  ∧ (d.missing → G = ⊤)
  ∧ (¬ d.missing → ¬ d.Solved ids required → NearMean ids d.gap G)

/-- Method `k` is a best one for the times `T` and gaps `G` (as in `BestMethod`). -/
def BestFor (data : ℕ → MethodData) (ids : List ℕ) (required : ℚ) (T G : ℕ → WithTop ℚ) (k : ℕ) : Prop :=
  ((∃ m ∈ [1, 2, 3, 4], (data m).Solved ids required) →
    (data k).Solved ids required
    ∧ ∀ m ∈ [1, 2, 3, 4], (data m).Solved ids required → T k ≤ T m)
  ∧ ((∀ m ∈ [1, 2, 3, 4], ¬ (data m).Solved ids required) →
    ∀ m ∈ [1, 2, 3, 4], (data m).nb ids required ≤ (data k).nb ids required
      ∧ ((data m).nb ids required = (data k).nb ids required → G k ≤ G m))

theorem flMethodSummary_spec {ids : List ℕ} {results : ℕ → List (List Val)} {d : MethodData} {r : ℤ}
    (hr : |r| ≤ 10 ^ 9) {req : ℚ} (hreq : Near req r) (hne : ids ≠ []) (hlen : ids.length ≤ 2 ^ 48) {m : ℕ}
    (hm4 : m ∈ [1, 2, 3, 4]) (hmiss : d.missing ↔ [] ∈ results m)
    (hrow : [] ∉ results m → ∀ j ∈ ids, ∃ row, (results m)[j - 1]? = some row
      ∧ FlRowOk row (d.gap j) (d.time j) (d.iter j) (m ∈ [3, 4]))
    (hm : ∀ j ∈ ids, Milli (d.gap j)) :
    ∃ S T G, flMethodSummary ids req results m = .ok S
      ∧ S.time = ofTop T ∧ S.gap = ofTop G ∧ S.nbSolved = d.nb ids ((r : ℚ) / 1000)
      ∧ NearData d ids ((r : ℚ) / 1000) T G
      ∧ S.cells.length = if m ≤ 2 then 1 else 2 := by
  by_cases hmis : [] ∈ results m
  · have hd : d.missing := hmiss.2 hmis
    refine ⟨_, ⊤, ⊤, by unfold flMethodSummary; rw [if_neg (not_not_intro hmis)], rfl, rfl, ?_,
      ⟨fun h => absurd hd h.1, fun _ => rfl, fun _ => rfl, fun h => absurd hd h⟩, ?_⟩
    · unfold MethodData.nb; rw [if_pos hd]
    · simp only [List.mem_cons, List.not_mem_nil, or_false] at hm4
      rcases hm4 with rfl | rfl | rfl | rfl <;> rfl
  · have hd : ¬ d.missing := fun h => hmis (hmiss.1 h)
    have hkind : m ∈ exportMilp ↔ m ∉ exportPart := by
      simp only [List.mem_cons, List.not_mem_nil, or_false] at hm4
      rcases hm4 with rfl | rfl | rfl | rfl <;> decide
    obtain ⟨S, T, G, hS, hnb, ht, hg, hall, hnot, hp, hq⟩ := C110_format (m := m) (milp := exportMilp)
      (part := exportPart) hr hreq hne hlen (hrow hmis) hm hkind
    refine ⟨S, T, G, by unfold flMethodSummary; rw [if_pos hmis, hS], ht, hg, ?_, ?_, ?_⟩
    · rw [hnb]; unfold MethodData.nb; rw [if_neg hd]
    · refine ⟨fun h => (hall h.2).1, fun h => (hnot fun hA => h ⟨hd, hA⟩).1, fun h => absurd h hd,
        fun _ h => (hnot fun hA => h ⟨hd, hA⟩).2.1⟩
    · simp only [List.mem_cons, List.not_mem_nil, or_false] at hm4
      rcases hm4 with rfl | rfl | rfl | rfl
      · exact hq (by decide)
      · exact hq (by decide)
      · exact (hp (by decide)).1
      · exact (hp (by decide)).1

/-- **C110 (table row).**  In double precision too, exactly one cell of a row of the summary table is set in
bold, the first cell of a method that is best for mean times and mean gaps that are right up to
rounding. -/
theorem C110_bold {head : List Val} {ids : List ℕ} {results : ℕ → List (List Val)}
    {data : ℕ → MethodData} {r : ℤ} (hr : |r| ≤ 10 ^ 9) {req : ℚ} (hreq : Near req r) (hh : head.length = 3)
    (hne : ids ≠ []) (hlen : ids.length ≤ 2 ^ 48)
    (hmiss : ∀ m ∈ [1, 2, 3, 4], (data m).missing ↔ [] ∈ results m)
    (hrow : ∀ m ∈ [1, 2, 3, 4], [] ∉ results m → ∀ j ∈ ids, ∃ row, (results m)[j - 1]? = some row
      ∧ FlRowOk row ((data m).gap j) ((data m).time j) ((data m).iter j) (m ∈ [3, 4]))
    (hm : ∀ m ∈ [1, 2, 3, 4], ∀ j ∈ ids, Milli ((data m).gap j)) :
    ∃ (T G : ℕ → WithTop ℚ) (cells cells' : ℕ → List Val) (k : ℕ),
      (∀ m ∈ [1, 2, 3, 4],
        (flMethodSummary ids req results m).map Summary.cells = .ok (cells m)
        ∧ NearData (data m) ids ((r : ℚ) / 1000) (T m) (G m))
      ∧ flTableRow head ids req results
          = .ok (head ++ (cells' 1 ++ cells' 2 ++ cells' 3 ++ cells' 4))
      ∧ k ∈ [1, 2, 3, 4] ∧ BestFor data ids ((r : ℚ) / 1000) T G k
      ∧ (∀ m ∈ [1, 2, 3, 4], m ≠ k → cells' m = cells m)
      ∧ ∃ v w l, cells k = v :: l ∧ cells' k = w :: l ∧ Bold v w := by
  have hspec := fun m (h : m ∈ [1, 2, 3, 4]) =>
    flMethodSummary_spec hr hreq hne hlen h (hmiss m h) (hrow m h) (hm m h)
  obtain ⟨S1, T1, G1, e1, t1, g1, n1, a1, l1⟩ := hspec 1 (by simp)
  obtain ⟨S2, T2, G2, e2, t2, g2, n2, a2, l2⟩ := hspec 2 (by simp)
  obtain ⟨S3, T3, G3, e3, t3, g3, n3, a3, l3⟩ := hspec 3 (by simp)
  obtain ⟨S4, T4, G4, e4, t4, g4, n4, a4, l4⟩ := hspec 4 (by simp)
  obtain ⟨k, hk, hkl, hfin, hinf⟩ := bestIndex_spec (sums := [S1, S2, S3, S4]) (by simp)
    (t := [T1, T2, T3, T4]) (g := [G1, G2, G3, G4]) (by simp [t1, t2, t3, t4])
    (by simp [g1, g2, g3, g4])
  have hsums : exportMethods.mapM (flMethodSummary ids req results)
      = .ok [S1, S2, S3, S4] := by
    simp only [exportMethods, List.mapM_cons, List.mapM_nil, e1, e2, e3, e4, bind, Except.bind,
      pure, Except.pure]
  let T : ℕ → WithTop ℚ := fun m => [⊤, T1, T2, T3, T4].getD m ⊤
  let G : ℕ → WithTop ℚ := fun m => [⊤, G1, G2, G3, G4].getD m ⊤
  have hT : ∀ m ∈ [1, 2, 3, 4], NearData (data m) ids ((r : ℚ) / 1000) (T m) (G m) := by
    intro m h
    simp only [List.mem_cons, List.not_mem_nil, or_false] at h
    rcases h with rfl | rfl | rfl | rfl
    · exact a1
    · exact a2
    · exact a3
    · exact a4
  have hfinT : ∀ m ∈ [1, 2, 3, 4], (data m).Solved ids ((r : ℚ) / 1000) → T m ≠ ⊤ := by
    intro m h hs ht
    obtain ⟨j, -, hj⟩ := ((hT m h).1 hs).1.1 ht
    exact WithTop.coe_ne_top hj
  have hTk : ∀ i < 4, [T1, T2, T3, T4][i]? = some (T (i + 1)) := by
    intro i hi; interval_cases i <;> rfl
  have hGk : ∀ i < 4, [G1, G2, G3, G4][i]? = some (G (i + 1)) := by
    intro i hi; interval_cases i <;> rfl
  have hNk : ∀ i < 4, ([S1, S2, S3, S4].map Summary.nbSolved)[i]?
      = some ((data (i + 1)).nb ids ((r : ℚ) / 1000)) := by
    intro i hi
    interval_cases i
    · simp [n1]
    · simp [n2]
    · simp [n3]
    · simp [n4]
  have hmem : ∀ m ∈ [1, 2, 3, 4], ∃ i < 4, m = i + 1 := by
    intro m h
    simp only [List.mem_cons, List.not_mem_nil, or_false] at h
    rcases h with rfl | rfl | rfl | rfl
    · exact ⟨0, by norm_num, rfl⟩
    · exact ⟨1, by norm_num, rfl⟩
    · exact ⟨2, by norm_num, rfl⟩
    · exact ⟨3, by norm_num, rfl⟩
  have hk4 : k < 4 := by simpa using hkl
  have hkm : k + 1 ∈ [1, 2, 3, 4] := by interval_cases k <;> simp
  have hbest : BestFor data ids ((r : ℚ) / 1000) T G (k + 1) := by
    constructor
    · rintro ⟨m, hm, hs⟩
      obtain ⟨i, hi, rfl⟩ := hmem m hm
      obtain ⟨x, hx, hx', hmin⟩ := hfin ⟨_, List.mem_of_getElem? (hTk i hi), hfinT _ hm hs⟩
      rw [hTk k hk4] at hx
      cases hx
      refine ⟨by_contra fun h => hx' ((hT _ hkm).2.1 h), ?_⟩
      intro m' hm' _
      obtain ⟨i', hi', rfl⟩ := hmem m' hm'
      exact hmin _ (List.mem_of_getElem? (hTk i' hi'))
    · intro hno m hm
      obtain ⟨x, n, hx, hn, hle⟩ := hinf (by
        intro x hx
        obtain ⟨i, hi⟩ := List.getElem?_of_mem hx
        have hi4 : i < 4 := by
          have := (List.getElem?_eq_some_iff.1 hi).1
          simpa using this
        rw [hTk i hi4] at hi
        cases hi
        have him : i + 1 ∈ [1, 2, 3, 4] := by interval_cases i <;> simp
        exact (hT _ him).2.1 (hno _ him))
      obtain ⟨i, hi, rfl⟩ := hmem m hm
      rw [hGk k hk4] at hx
      rw [hNk k hk4] at hn
      cases hx
      cases hn
      exact hle i _ _ (hGk i hi) (hNk i hi)
  rw [if_pos (by norm_num)] at l1 l2
  rw [if_neg (by norm_num)] at l3 l4
  obtain ⟨c1, hc1⟩ := List.length_eq_one_iff.1 l1
  obtain ⟨c2, hc2⟩ := List.length_eq_one_iff.1 l2
  obtain ⟨c3, d3, hc3⟩ := List.length_eq_two.1 l3
  obtain ⟨c4, d4, hc4⟩ := List.length_eq_two.1 l4
  obtain ⟨h0, h1, h2, rfl⟩ := List.length_eq_three.1 hh
  have hcells : ∀ m ∈ [1, 2, 3, 4],
      (flMethodSummary ids req results m).map Summary.cells
        = .ok ([[], [c1], [c2], [c3, d3], [c4, d4]].getD m []) := by
    intro m h
    simp only [List.mem_cons, List.not_mem_nil, or_false] at h
    rcases h with rfl | rfl | rfl | rfl
    · rw [e1]; simp [Except.map, hc1]
    · rw [e2]; simp [Except.map, hc2]
    · rw [e3]; simp [Except.map, hc3]
    · rw [e4]; simp [Except.map, hc4]
  have hbold : ∀ v, Bold v (bold v) := by
    rintro v t rfl; rfl
  refine ⟨T, G, fun m => [[], [c1], [c2], [c3, d3], [c4, d4]].getD m [],
    fun m => if m = k + 1 then (match [[], [c1], [c2], [c3, d3], [c4, d4]].getD m [] with
      | [] => []
      | v :: l => bold v :: l) else [[], [c1], [c2], [c3, d3], [c4, d4]].getD m [],
    k + 1, fun m h => ⟨hcells m h, hT m h⟩, ?_, hkm, hbest, fun m _ h => by simp [h], ?_⟩
  · unfold flTableRow
    simp only [hsums, hk, bind, Except.bind, List.map_cons, List.map_nil, hc1, hc2, hc3, hc4]
    interval_cases k <;> rfl
  · interval_cases k <;> exact ⟨_, _, _, rfl, rfl, hbold _⟩

/-- A method with the lowest mean time by a margin above the rounding errors is the one in bold: with `k`
instances and non-negative times, a factor `1 + 8·(3k+2)/2⁵³` is enough. -/
theorem C110_clear {ids : List ℕ} (hlen : ids.length ≤ 2 ^ 48) {t t' : ℕ → ℚ} {T T' : WithTop ℚ}
    (h0 : ∀ j ∈ ids, 0 ≤ t j) (h0' : ∀ j ∈ ids, 0 ≤ t' j)
    (h : NearMean ids (fun j => (t j : ℚ)) T) (h' : NearMean ids (fun j => (t' j : ℚ)) T')
    (hlt : (1 + 8 * ((3 * ids.length + 2) / 2 ^ 53)) * mean ids t < mean ids t') : T < T' := by
  obtain ⟨w, rfl, hw⟩ := h.2 t fun _ _ => rfl
  obtain ⟨w', rfl, hw'⟩ := h'.2 t' fun _ _ => rfl
  have e : ∀ {q : ℕ → ℚ}, (∀ j ∈ ids, 0 ≤ q j) → mean ids (fun j => |q j|) = mean ids q := by
    intro q hq
    unfold mean
    rw [List.map_congr_left fun j hj => abs_of_nonneg (hq j hj)]
  have n0 : 0 ≤ mean ids t := by
    unfold mean
    exact div_nonneg (List.sum_nonneg (by simpa using h0)) (Nat.cast_nonneg _)
  rw [e h0] at hw
  rw [e h0'] at hw'
  rw [WithTop.coe_lt_coe]
  have hu : (3 * (ids.length : ℚ) + 2) / 2 ^ 53 ≤ 1 / 8 := by
    have : (ids.length : ℚ) ≤ 2 ^ 48 := by exact_mod_cast hlen
    rw [div_le_iff₀ (by norm_num)]
    linarith
  have hu0 : 0 ≤ (3 * (ids.length : ℚ) + 2) / 2 ^ 53 := by positivity
  generalize (3 * (ids.length : ℚ) + 2) / 2 ^ 53 = u at *
  generalize mean ids t = a at *
  generalize mean ids t' = b at *
  have h1 := (abs_le.1 hw).2
  have h2 := (abs_le.1 hw').1
  have h3 : (1 - u) * ((1 + 8 * u) * a) ≤ (1 - u) * b := mul_le_mul_of_nonneg_left hlt.le (by linarith)
  rcases hu0.eq_or_lt with rfl | hu1
  · linarith
  rcases n0.eq_or_lt with rfl | ha
  · have : 0 < b := by linarith
    have : 0 < (1 - u) * b := mul_pos (by linarith) this
    linarith
  · have h4 : 0 < u * a := mul_pos hu1 ha
    have h5 : u * (u * a) ≤ 1 / 8 * (u * a) := mul_le_mul_of_nonneg_right hu h4.le
    have e3 : (1 - u) * ((1 + 8 * u) * a) = a + 7 * (u * a) - 8 * (u * (u * a)) := by ring
    rw [e3] at h3
    linarith

/-- **C110 (files).**  The rows that come out of the text of result files (`C99_results`) hold the doubles
next to the printed numbers. -/
theorem C110_files {row : List Val} {gap : WithTop ℚ} {time iter : ℚ} {adaptive : Prop}
    (h : RowOk row gap time iter adaptive) : FlRowOk (row.map rdVal) gap time iter adaptive := by
  have e : ∀ {k g}, Back row k g → Back (row.map rdVal) k (roundDouble g) := by
    intro k g hb
    unfold Back at *
    rw [← List.map_reverse, List.getElem?_map, hb]
    rfl
  exact ⟨e h.gap, e h.time, fun ha => e (h.iter ha)⟩

/-- **C110 (solved).**  An instance that `format_method` counts as solved in double precision, with the required
gap `1e-4 * 100`, is solved: if its row has a positive lower bound and says what the rows of methods 1 and 2
say by C109, some feasible point is within a factor `1.000106` of every other, up to the error `e`. -/
theorem C110_solved {I : Inst} {e : ℚ} {vals : List Val} (h : FlRowSays I e vals) (hc : Spec.NonnegC I)
    (he : 0 ≤ e) (hl : ∀ l, Back vals 3 (.fin l) → 0 < l)
    (hs : flCountLoop [vals] (rd (rd (1 / 10 ^ 4) * 100)) [1] 0 true = .ok (1, true)) :
    ∃ x, Spec.Feas I x ∧ ∀ y, Spec.Feas I y →
      Spec.obj I y ≤ (1 + 106 / 10 ^ 6) * (Spec.obj I x + e) + e := by
  obtain ⟨l, u, γ, b3, b2, b1, -, x, hx, -, hg⟩ := h
  refine ⟨x, hx, fun y hy => (hg (hl l b3) y hy).trans ?_⟩
  have hγ : γ ≤ rd (rd (rd (1 / 10 ^ 4) * 100) + fl64 (1 / 10 ^ 7)) := by
    simp only [flCountLoop, pyGet, bind, Except.bind, List.getElem?_cons_zero, Nat.sub_self,
      backNum_of b1, Gap.le, decide_eq_true_eq] at hs
    by_contra hn
    rw [if_neg hn] at hs
    simp at hs
  have hb : rd (rd (rd (1 / 10 ^ 4) * 100) + fl64 (1 / 10 ^ 7)) ≤ 1001 / 10 ^ 5 := by decide +kernel
  have h0 : 0 ≤ Spec.obj I x := obj_nonneg hc hx.1
  have hm : max γ 0 ≤ 1001 / 10 ^ 5 := max_le (hγ.trans hb) (by norm_num)
  have := mul_le_mul_of_nonneg_right (show 1 + (max γ 0 + 51 / 100000) / 100 ≤ 1 + 106 / 10 ^ 6 by linarith)
    (add_nonneg h0 he)
  linarith

/-- The rows of methods 1 and 2, read from their texts, are as C110 needs them. -/
theorem fl_row_ok {env : Env} {location : Txt} {J : Inst} {m : ℕ} {total : ℚ} {row : List Cell}
    (hr : flMainRow env location J m total = .ok row) {ts : List Txt} (ht : RowText location row ts) :
    ∃ vals γ, textExperiment (csvWrite [fileName location :: ts]) = .ok vals ∧ vals ≠ []
      ∧ FlRowOk vals ((γ : ℚ) : WithTop ℚ) (roundDec 3 total) 0 False ∧ Milli ((γ : ℚ) : WithTop ℚ)
      ∧ ∃ st, flMilp env J m = .ok st
        ∧ γ = roundDec 3 (rd (rd (rd (st.vUB - st.vLB) / st.vLB) * 100)) := by
  unfold flMainRow at hr
  simp only [bind, Except.bind] at hr
  split at hr
  · cases hr
  · rename_i st hst
    obtain ⟨t, g, b, ht', hg, -, hv⟩ := flMilpRow_vals hr
    cases ht'
    obtain ⟨hn, hts⟩ := ht
    cases hts with
    | @cons c _ cs _ h1 h2 =>
    have hcn : c = .text (fileName location) := by
      unfold flMilpRow at hr
      cases hp : flComputationDetails (fileName location) J (st.vLB : WithBot ℚ) (st.vUB : WithTop ℚ) false
          false (some total) 3 with
      | error e => rw [hp] at hr; cases hr
      | ok p =>
        obtain ⟨t, g, -, -, -, rfl⟩ := flDetails_ok hp
        rw [hp] at hr
        simp only [bind, Except.bind] at hr
        split at hr
        · cases hr
        · simp only [pure, Except.pure, Except.ok.injEq, List.cons_append, List.cons.injEq] at hr
          exact hr.1.symm
    subst hcn
    have hl0 : st.vLB ≠ 0 := by
      intro h0
      rw [h0] at hg
      simp [flComputeGap] at hg
    have hg' : g = .fin (rd (rd (st.vUB - st.vLB) / st.vLB)) := by
      simp only [flComputeGap, if_neg hl0, Except.ok.injEq] at hg
      exact hg.symm
    subst hg'
    refine ⟨_, roundDec 3 (rd (rd (rd (st.vUB - st.vLB) / st.vLB) * 100)), C99_results hn h2 hv, by simp,
      ⟨rfl, rfl, fun h => h.elim⟩, ?_, st, hst, rfl⟩
    intro q hq
    refine ⟨rint (rd (rd (rd (st.vUB - st.vLB) / st.vLB) * 100) * 10 ^ 3),
      (WithTop.coe_inj.1 hq).symm.trans ((roundDec_eq _ _).trans ?_)⟩
    norm_num

/-- **C110 (from runs to the table).**  `K` runs of method 1 or 2, their rows read from the texts of the result
files by the exporter: the number of solved instances is the number of printed gaps of at most 0.01 percent,
the time shown is the mean of the printed times up to rounding if all are solved; and each instance with such
a gap and a positive lower bound is solved within a factor `1.000106`, up to the error of its row. -/
theorem C110_table {K : ℕ} (hK : 0 < K) (hK' : K ≤ 2 ^ 48) {m : ℕ} (hm : m ∈ [1, 2]) {env : ℕ → Env}
    {location : ℕ → Txt} {J : ℕ → Inst} {total : ℕ → ℚ} {row : ℕ → List Cell} {ts : ℕ → List Txt}
    (hr : ∀ k < K, flMainRow (env k) (location k) (J k) m (total k) = .ok (row k))
    (ht : ∀ k < K, RowText (location k) (row k) (ts k)) :
    ∃ (vals : ℕ → List Val) (γ : ℕ → ℚ) (S : Summary) (T G : WithTop ℚ),
      (∀ k < K, textExperiment (csvWrite [fileName (location k) :: ts k]) = .ok (vals k)
        ∧ Back (vals k) 1 (.fin (rd (γ k))) ∧ ∃ z : ℤ, γ k = z / 1000)
      ∧ flMethodSummary (List.range' 1 K) (rd (rd (1 / 10 ^ 4) * 100)) (fun _ => (List.range K).map vals) m
        = .ok S
      ∧ S.nbSolved = ((List.range K).filter fun k => γ k ≤ 1 / 100).length
      ∧ S.time = ofTop T ∧ S.gap = ofTop G
      ∧ ((∀ k < K, γ k ≤ 1 / 100) →
          NearMean (List.range' 1 K) (fun j => (roundDec 3 (total (j - 1)) : ℚ)) T
          ∧ ∃ t, S.cells = [.str t] ∧ Shows t (ofTop T) ['s'])
      ∧ ((∃ k < K, 1 / 100 < γ k) → T = ⊤
          ∧ NearMean (List.range' 1 K) (fun j => (γ (j - 1) : ℚ)) G
          ∧ ∃ t, S.cells = [.str t] ∧ Shows t (ofTop G) ("\\%(".toList ++ (toString S.nbSolved).toList ++ [')']))
      ∧ ∀ k < K, γ k ≤ 1 / 100 → ∀ (I : Inst) (e : ℚ), FlRowSays I e (vals k) → Spec.NonnegC I → 0 ≤ e →
          (∀ l, Back (vals k) 3 (.fin l) → 0 < l) →
          ∃ x, Spec.Feas I x ∧ ∀ y, Spec.Feas I y →
            Spec.obj I y ≤ (1 + 106 / 10 ^ 6) * (Spec.obj I x + e) + e := by
  choose! vals γ h1 h2 h3 h4 _ _ _ using fun k (hk : k < K) => fl_row_ok (hr k hk) (ht k hk)
  set results := (List.range K).map vals with hres
  have hne : [] ∉ results := by
    intro h
    obtain ⟨k, hk, e⟩ := List.mem_map.1 h
    exact h2 k (List.mem_range.1 hk) e
  have hmem : ∀ {j}, j ∈ List.range' 1 K ↔ 1 ≤ j ∧ j - 1 < K := by
    intro j
    rw [List.mem_range'_1]; omega
  have hget : ∀ k < K, results[k]? = some (vals k) := by
    intro k hk
    rw [hres, List.getElem?_map, List.getElem?_range hk]; rfl
  have hpart : m ∉ exportPart := by
    simp only [List.mem_cons, List.not_mem_nil, or_false] at hm
    rcases hm with rfl | rfl <;> decide
  have hmilp : m ∈ exportMilp := by
    simp only [List.mem_cons, List.not_mem_nil, or_false] at hm
    rcases hm with rfl | rfl <;> decide
  have hnear : Near (rd (rd (1 / 10 ^ 4) * 100)) 10 := by unfold Near; decide +kernel
  obtain ⟨S, T, G, hS, hnb, hT, hG, hall, hnot, -, hc⟩ := C110_format (results := results)
    (ids := List.range' 1 K) (gap := fun j => ((γ (j - 1) : ℚ) : WithTop ℚ))
    (time := fun j => roundDec 3 (total (j - 1))) (iter := fun _ => 0) (m := m) (milp := exportMilp)
    (part := exportPart) (r := 10) (by norm_num) hnear (by simp; omega) (by simpa using hK')
    (fun j hj => ⟨vals (j - 1), hget _ (hmem.1 hj).2, by
      have := h3 (j - 1) (hmem.1 hj).2
      exact ⟨this.gap, this.time, fun h => absurd h hpart⟩⟩)
    (fun j hj => h4 (j - 1) (hmem.1 hj).2) ⟨fun _ => hpart, fun _ => hmilp⟩
  have e10 : (((10 : ℤ) : ℚ) / 1000 : ℚ) = 1 / 100 := by norm_num
  rw [e10] at hnb hall hnot
  have hcell : ∀ {v}, S.cells[0]? = some v → S.cells = [v] := by
    intro v hv
    obtain ⟨w, hw⟩ := List.length_eq_one_iff.1 (hc hpart)
    rw [hw] at hv ⊢
    simpa using hv
  refine ⟨vals, γ, S, T, G, fun k hk => ⟨h1 k hk, (h3 k hk).gap, h4 k hk _ rfl⟩, ?_, ?_, hT, hG, ?_, ?_, ?_⟩
  · unfold flMethodSummary
    rw [if_pos hne]
    exact hS
  · rw [hnb]
    unfold nbSolved
    rw [List.range'_eq_map_range, List.countP_map, List.countP_eq_length_filter]
    congr 1
    refine List.filter_congr fun k hk => ?_
    simp only [Function.comp, Nat.add_sub_cancel_left, WithTop.coe_le_coe]
  · intro hA
    obtain ⟨a1, -, t, a2, a3⟩ := hall fun j hj => WithTop.coe_le_coe.2 (hA _ (hmem.1 hj).2)
    exact ⟨a1, t, hcell a2, a3⟩
  · rintro ⟨k, hk, hlt⟩
    obtain ⟨a1, a2, t, a3, a4⟩ := hnot fun hA => by
      have := hA (k + 1) (hmem.2 ⟨by omega, by simpa using hk⟩)
      simp only [Nat.add_sub_cancel, WithTop.coe_le_coe] at this
      linarith
    rw [← hnb] at a4
    exact ⟨a1, a2, t, hcell a3, a4⟩
  · intro k hk hγ I e hsays hcI he hl
    obtain ⟨l, u, γ', b3, b2, b1, -, x, hx, -, hg⟩ := hsays
    have e1 : γ' = rd (γ k) := by
      have := (h3 k hk).gap
      unfold Back at this b1
      rw [b1] at this
      simpa [ofTop, roundDouble] using this
    refine ⟨x, hx, fun y hy => (hg (hl l b3) y hy).trans ?_⟩
    have hb : rd (1 / 100) ≤ 1001 / 10 ^ 5 := by decide +kernel
    have h0 : 0 ≤ Spec.obj I x := obj_nonneg hcI hx.1
    have hm : max γ' 0 ≤ 1001 / 10 ^ 5 := max_le (by rw [e1]; exact (rd_mono hγ).trans hb) (by norm_num)
    have := mul_le_mul_of_nonneg_right
      (show 1 + (max γ' 0 + 51 / 100000) / 100 ≤ 1 + 106 / 10 ^ 6 by linarith) (add_nonneg h0 he)
    linarith

/-! ## The table of big-M times -/

/-- The mean of the times in doubles, `-` if one is missing. -/
def FlMeanShown (l : List (Option ℚ)) (v : Val) : Prop :=
  (none ∈ l → v = .str ['-'])
  ∧ ∀ q : List ℚ, l = q.map some → ∃ (w : ℚ) (t : Txt),
      |w - q.sum / q.length| ≤ (3 * q.length + 2) / 2 ^ 53 * ((q.map fun x => |x|).sum / q.length)
      ∧ v = .str t ∧ Shows t (.fin w) ['s']

theorem flBigMSum_eq {d : ExpDict} {inst : Txt} {scen method : ℕ} {ids pre : List ℕ}
    {key : ℕ → ℕ × ℕ × ℚ} {f : ℕ → Option ℚ}
    (h : ∀ i ∈ ids, ∃ r, assocGet d ((key i).1, inst, scen, (key i).2.1, (key i).2.2, method) = .ok r
      ∧ (f i = none → r = [])
      ∧ ∀ t, f i = some t → 0 < r.length ∧ r[10]? = some (.num (.fin (rd t))))
    (hlen : pre.length + ids.length ≤ 2 ^ 48) {a : WithTop ℚ}
    (ha : NearSum pre (fun i => timeTop (f i)) a) :
    ∃ a', flBigMSum d inst scen method (ids.map key) (ofTop a) = .ok (ofTop a')
      ∧ NearSum (pre ++ ids) (fun i => timeTop (f i)) a' := by
  induction ids generalizing pre a with
  | nil => exact ⟨a, rfl, by simpa using ha⟩
  | cons i ids ih =>
    obtain ⟨r, h1, h2, h3⟩ := h i (by simp)
    have hl : pre.length < 2 ^ 48 := by simp at hlen; omega
    have ha' := nearSum_snoc hl ha i
    obtain ⟨a', e1, e2⟩ := ih (pre := pre ++ [i]) (fun k hk => h k (by simp [hk]))
      (by simp at hlen ⊢; omega) ha'
    refine ⟨a', ?_, by simpa using e2⟩
    rw [← e1, List.map_cons]
    rw [flBigMSum.eq_def]
    simp only [h1, bind, Except.bind]
    cases ht : f i with
    | none =>
      rw [h2 ht, if_neg (by simp)]
      have : flTopAdd a (timeTop none) = ⊤ := by cases a <;> rfl
      rw [this]
      rfl
    | some t =>
      obtain ⟨h4, h5⟩ := h3 t ht
      rw [if_pos h4, pyGet_eq h5]
      simp only [asNum]
      rw [← flAdd_ofTop]
      rfl

theorem range_getD (q : List ℚ) : (List.range q.length).map (fun i => q.getD i 0) = q := by
  apply List.ext_getElem (by simp)
  intro i h1 h2
  simp [h2]

theorem flBigM_cell {d : ExpDict} {inst : Txt} {scen method : ℕ} {p : ExportPar} {kinds : List ℕ}
    {time : ℕ → ℕ → ℚ → Option ℚ}
    (h : ∀ c ∈ kinds, ∀ j ∈ p.ids, ∀ e ∈ p.epsilons, ∃ r,
      assocGet d (c, inst, scen, j, e, method) = .ok r ∧ (time c j e = none → r = [])
      ∧ ∀ t, time c j e = some t → 0 < r.length ∧ r[10]? = some (.num (.fin (rd t))))
    {n : ℕ} (hn : n = kinds.length * (p.nb * p.epsilons.length)) (h0 : n ≠ 0) (hlen : n ≤ 2 ^ 48) :
    ∃ t v, flBigMSum d inst scen method (bigMKeys p kinds) (.fin 0) = .ok t
      ∧ flBigMEntry t n = .ok v ∧ FlMeanShown (kindTimes p kinds time) v := by
  have hL : (bigMKeys p kinds).length = n := by
    rw [hn, ← kindTimes_length (time := time), kindTimes_eq, List.length_map]
  have hT : kindTimes p kinds time = (bigMKeys p kinds).map fun k => time k.1 k.2.1 k.2.2 := kindTimes_eq
  have hkey : ∀ k ∈ bigMKeys p kinds, ∃ r,
      assocGet d (k.1, inst, scen, k.2.1, k.2.2, method) = .ok r ∧ (time k.1 k.2.1 k.2.2 = none → r = [])
      ∧ ∀ t, time k.1 k.2.1 k.2.2 = some t → 0 < r.length ∧ r[10]? = some (.num (.fin (rd t))) := by
    rintro ⟨c, j, e⟩ hk'
    simp only [bigMKeys, List.mem_flatMap, List.mem_map, Prod.mk.injEq] at hk'
    obtain ⟨c', hc, j', hj, e', he, rfl, rfl, rfl⟩ := hk'
    exact h _ hc _ hj _ he
  generalize bigMKeys p kinds = l at *
  let key : ℕ → ℕ × ℕ × ℚ := fun i => l.getD i (0, 0, 0)
  have hmap : (List.range n).map key = l := by
    apply List.ext_getElem (by simp [hL])
    intro i h1 h2
    simp [key, h2]
  obtain ⟨a, e1, e2⟩ := flBigMSum_eq (d := d) (inst := inst) (scen := scen) (method := method)
    (ids := List.range n) (pre := []) (key := key)
    (f := fun i => time (key i).1 (key i).2.1 (key i).2.2)
    (fun i hi => hkey _ (by
      have hil : i < l.length := by rw [hL]; exact List.mem_range.1 hi
      simp only [key]
      rw [List.getD_eq_getElem _ _ hil]
      exact List.getElem_mem hil)) (by simpa using hlen) (nearSum_nil _)
  rw [hmap] at e1
  rw [List.nil_append] at e2
  have hm := nearMean_of (ids := List.range n) (by simpa using h0) (by simpa using hlen) e2
  rw [List.length_range] at hm
  have hTm : kindTimes p kinds time
      = (List.range n).map fun i => time (key i).1 (key i).2.1 (key i).2.2 := by
    rw [hT]
    conv_lhs => rw [← hmap]
    rw [List.map_map]
    rfl
  refine ⟨ofTop a, if flMean n (ofTop a) = .posInf then .str ['-']
    else .str (fmtFloat 2 (flMean n (ofTop a)) ++ ['s']), e1, ?_, ?_, ?_⟩
  · unfold flBigMEntry
    simp only [h0, if_false, bind, Except.bind, pure, Except.pure]
  · intro hno
    rw [hTm, List.mem_map] at hno
    obtain ⟨i, hi, hi'⟩ := hno
    have := hm.1.2 ⟨i, hi, by simp only [hi', timeTop]⟩
    rw [if_pos]
    rw [flMean_ofTop, this]
    rfl
  · intro q hq
    have hql : q.length = n := by
      have := congrArg List.length (hTm.symm.trans hq)
      simpa using this.symm
    obtain ⟨w, hw, hwe⟩ := hm.2 (fun i => q.getD i 0) (by
      intro i hi
      have hi' := List.mem_range.1 hi
      have := congrArg (fun l => l[i]?) (hTm.symm.trans hq)
      simp only [List.getElem?_map, List.getElem?_range hi', Option.map_some] at this
      rw [List.getElem?_eq_getElem (by omega), Option.map_some, Option.some.injEq] at this
      simp only [this, timeTop]
      rw [List.getD_eq_getElem _ _ (by omega)])
    refine ⟨w, _, ?_, ?_, shows_fmt _ _⟩
    · unfold mean at hwe
      rw [List.length_range, ← hql] at hwe
      rw [range_getD] at hwe
      have : (List.range q.length).map (fun j => |q.getD j 0|) = q.map fun x => |x| := by
        conv_rhs => rw [← range_getD q]
        rw [List.map_map]
        rfl
      rw [this] at hwe
      exact hwe
    · rw [flMean_ofTop, hw]
      rfl

/-- **C110 (big-M times).**  In double precision a row of the table of big-M times shows the means of the times
of Song's big-Ms, and of Belotti's for divisible and for indivisible items, up to rounding errors, or `-` if
one is missing. -/
theorem C110_big_m {p : ExportPar} {d : ExpDict} {inst name : Txt} {scen : ℕ}
    {time : ℕ → ℕ → ℕ → ℚ → Option ℚ} (hnb : 0 < p.nb) (heps : p.epsilons ≠ [])
    (hlen : p.nb * p.epsilons.length * 2 ≤ 2 ^ 48)
    (h : ∀ m ∈ [1, 2], ∀ c ∈ [1, 0], ∀ j ∈ p.ids, ∀ e ∈ p.epsilons, ∃ r,
      assocGet d (c, inst, scen, j, e, m) = .ok r ∧ (time m c j e = none → r = [])
      ∧ ∀ t, time m c j e = some t → 0 < r.length ∧ r[10]? = some (.num (.fin (rd t)))) :
    ∃ song cont bin, flBigMRow p d inst name scen = .ok [.str name, .num (.fin scen), song, cont, bin]
      ∧ FlMeanShown (kindTimes p [1, 0] (time 1)) song
      ∧ FlMeanShown (kindTimes p [1] (time 2)) cont
      ∧ FlMeanShown (kindTimes p [0] (time 2)) bin := by
  have hn : p.nb * p.epsilons.length ≠ 0 := by
    have := Nat.mul_pos hnb (List.length_pos_of_ne_nil heps)
    omega
  obtain ⟨t1, v1, q1, w1, m1⟩ := flBigM_cell (kinds := [1, 0]) (h 1 (by simp))
    (n := p.nb * p.epsilons.length * 2) (by simp; ring) (by omega) hlen
  obtain ⟨t2, v2, q2, w2, m2⟩ := flBigM_cell (kinds := [1]) (fun c hc => h 2 (by simp) c (by simp_all))
    (n := p.nb * p.epsilons.length) (by simp) hn (by omega)
  obtain ⟨t3, v3, q3, w3, m3⟩ := flBigM_cell (kinds := [0]) (fun c hc => h 2 (by simp) c (by simp_all))
    (n := p.nb * p.epsilons.length) (by simp) hn (by omega)
  refine ⟨v1, v2, v3, ?_, m1, m2, m3⟩
  unfold flBigMRow
  simp only [q1, q2, q3, w1, w2, w3, bind, Except.bind, pure, Except.pure]

/-! ## A case in point -/

/-- The results of `exResults` as doubles. -/
def flExResults (m : ℕ) : List (List Val) :=
  (exResults m).map fun row => row.map fun v => match v with
    | .num g => .num (roundDouble g)
    | v => v

/-- The data in these results. -/
def flExData : ℕ → MethodData
  | 1 => ⟨False, fun j => if j = 1 then (0 : ℚ) else ((1 / 100 : ℚ) : WithTop ℚ),
      fun j => if j = 1 then 3 else 4, fun _ => 0⟩
  | 2 => ⟨False, fun j => if j = 1 then (0 : ℚ) else ((11 / 1000 : ℚ) : WithTop ℚ),
      fun j => if j = 1 then 1 else 2, fun _ => 0⟩
  | 3 => ⟨False, fun j => if j = 1 then ⊤ else ((2 : ℚ) : WithTop ℚ), fun _ => 3600,
      fun j => if j = 1 then 5 else 8⟩
  | _ => ⟨True, fun _ => (0 : ℚ), fun _ => 10, fun _ => 5⟩

/-- Hypotheses and conclusion of C110 on these results; the required gap is `1e-4 * 100` in doubles. -/
example : Near (rd (rd (1 / 10 ^ 4) * 100)) 10
    ∧ (∀ m ∈ [1, 2, 3, 4], (flExData m).missing ↔ [] ∈ flExResults m)
    ∧ (∀ m ∈ [1, 2, 3, 4], [] ∉ flExResults m → ∀ j ∈ [1, 2], ∃ row,
        (flExResults m)[j - 1]? = some row
        ∧ FlRowOk row ((flExData m).gap j) ((flExData m).time j) ((flExData m).iter j) (m ∈ [3, 4]))
    ∧ (∀ m ∈ [1, 2, 3, 4], ∀ j ∈ [1, 2], Milli ((flExData m).gap j))
    ∧ flTableRow [.str [], .str [], .str []] [1, 2] (rd (rd (1 / 10 ^ 4) * 100)) flExResults
      = .ok [.str [], .str [], .str [], .str "\\textbf{3.50s}".toList, .str "0.01\\%(1)".toList,
          .str "inf\\%(0)".toList, .num (.fin (13 / 2)), .num .nan, .num .nan] := by
  refine ⟨?_, ?_, ?_, ?_, ?_⟩
  · unfold Near; decide +kernel
  · intro m hm
    simp only [List.mem_cons, List.not_mem_nil, or_false] at hm
    rcases hm with rfl | rfl | rfl | rfl <;>
      simp [flExData, flExResults, exResults, exRow]
  · intro m hm hmis j hj
    simp only [List.mem_cons, List.not_mem_nil, or_false] at hm hj
    rcases hm with rfl | rfl | rfl | rfl
    · rcases hj with rfl | rfl <;> exact ⟨_, rfl, rfl, rfl, fun h => by simp at h⟩
    · rcases hj with rfl | rfl <;> exact ⟨_, rfl, rfl, rfl, fun h => by simp at h⟩
    · rcases hj with rfl | rfl <;> exact ⟨_, rfl, rfl, rfl, fun h => rfl⟩
    · exact absurd (by simp [flExResults, exResults]) hmis
  · intro m hm j hj q hq
    simp only [List.mem_cons, List.not_mem_nil, or_false] at hm hj
    rcases hm with rfl | rfl | rfl | rfl
    · rcases hj with rfl | rfl
      · exact ⟨0, by rw [← WithTop.coe_inj.1 hq]; norm_num⟩
      · exact ⟨10, by rw [← WithTop.coe_inj.1 hq]; norm_num⟩
    · rcases hj with rfl | rfl
      · exact ⟨0, by rw [← WithTop.coe_inj.1 hq]; norm_num⟩
      · exact ⟨11, by rw [← WithTop.coe_inj.1 hq]; norm_num⟩
    · rcases hj with rfl | rfl
      · cases hq
      · exact ⟨2000, by rw [← WithTop.coe_inj.1 hq]; norm_num⟩
    · exact ⟨0, by rw [← WithTop.coe_inj.1 hq]; norm_num⟩
  · decide +kernel

/-- Two instances and one risk level; Belotti's big-Ms for indivisible items are missing once. -/
def flExDict : ExpDict :=
  [(1, 1, 1), (1, 2, 2), (0, 1, 3), (0, 2, 4)].flatMap fun (c, j, t) =>
    [((c, ['a'], 5, j, 1 / 10, 1), List.replicate 10 (.num (.fin 0)) ++ [.num (.fin (rd (t / 10)))]),
     ((c, ['a'], 5, j, 1 / 10, 2), if (c, j) = (0, 2) then [] else
        List.replicate 10 (.num (.fin 0)) ++ [.num (.fin (rd (t / 10)))])]

/-- The times in this dictionary. -/
def flExTime (m c j : ℕ) (_ : ℚ) : Option ℚ :=
  if c = 1 then some (j / 10) else if m = 2 ∧ j = 2 then none else some ((j + 2) / 10)

/-- Hypotheses and conclusion of C110 for the big-M times. -/
example : let p : ExportPar := ⟨[['a']], 2, [5], [1 / 10], [1, 0], 1 / 100, [], []⟩
    0 < p.nb ∧ p.epsilons ≠ [] ∧ p.nb * p.epsilons.length * 2 ≤ 2 ^ 48
    ∧ (∀ m ∈ [1, 2], ∀ c ∈ [1, 0], ∀ j ∈ p.ids, ∀ e ∈ p.epsilons, ∃ r,
      assocGet flExDict (c, ['a'], 5, j, e, m) = .ok r ∧ (flExTime m c j e = none → r = [])
      ∧ ∀ t, flExTime m c j e = some t → 0 < r.length ∧ r[10]? = some (.num (.fin (rd t))))
    ∧ flBigMRow p flExDict ['a'] ['x'] 5
      = .ok [.str ['x'], .num (.fin 5), .str "0.25s".toList, .str "0.15s".toList, .str ['-']] := by
  refine ⟨by decide, by simp, by decide, ?_, by decide +kernel⟩
  intro m hm c hc j hj e he
  have key : ∀ m ∈ [1, 2], ∀ c ∈ [1, 0], ∀ j ∈ List.range' 1 2, ∀ e ∈ [(1 / 10 : ℚ)],
      assocGet flExDict (c, ['a'], 5, j, e, m) = .ok (match flExTime m c j e with
        | none => []
        | some t => List.replicate 10 (.num (.fin 0)) ++ [.num (.fin (rd t))]) := by decide +kernel
  refine ⟨_, key m hm c hc j hj e he, fun h => by rw [h], fun t h => by rw [h]; simp⟩

/-- A row with the bounds 3 and 3 meets the hypotheses of `C110_solved` for the instance of C103. -/
example : FlRowSays exPipe 1 [.num (.fin 3), .num (.fin 3), .num (.fin 0)] ∧ Spec.NonnegC exPipe
    ∧ (∀ l, Back [.num (.fin 3), .num (.fin 3), .num (.fin 0)] 3 (.fin l) → 0 < l)
    ∧ flCountLoop [[.num (.fin 3), .num (.fin 3), .num (.fin 0)]] (rd (rd (1 / 10 ^ 4) * 100)) [1] 0 true
      = .ok (1, true) := by
  refine ⟨⟨3, 3, 0, rfl, rfl, rfl, fun y hy => (exPipe_up hy).trans (by norm_num), _, exPipe_one.1, ?_, ?_⟩,
    exPipe_nonneg, ?_, by decide +kernel⟩
  · rw [exPipe_one.2]; norm_num
  · intro _ y hy
    rw [exPipe_one.2]
    exact (exPipe_up hy).trans (by norm_num)
  · intro l hl
    simp only [Back] at hl
    simp at hl
    rw [← hl]; norm_num

/-- An environment for the instance of C103: the first item is taken. -/
def exTableEnv : Env := { bruteEnv exNorm 0 with cc := fun _ => pairAnswer 1 0 0 }

/-- The texts of the row. -/
def exTableTexts : List Txt :=
  ["2".toList, "1".toList, "4".toList, "0".toList, "0.250".toList, "3600.000".toList, "0.010".toList,
    "1".toList, "0".toList, "0.0".toList, "2.500".toList, "3.000".toList, "3.000".toList, "0.000".toList]

/-- Hypotheses of `C110_table`, for two runs of either method on the instance of C103, and a row to which its
last part applies. -/
example : (∀ m ∈ [1, 2], ∀ k < 2, ∃ row, flMainRow exTableEnv "a/x.csv".toList exPipe m (5 / 2) = .ok row
      ∧ RowText "a/x.csv".toList row exTableTexts)
    ∧ ∃ vals, textExperiment (csvWrite [fileName "a/x.csv".toList :: exTableTexts]) = .ok vals
      ∧ FlRowSays exPipe 1 vals ∧ ∀ l, Back vals 3 (.fin l) → 0 < l := by
  have key : ∀ m ∈ [1, 2], flMainRow exTableEnv "a/x.csv".toList exPipe m (5 / 2)
      = .ok (.text ['x'] :: (exTableTexts.take 9).map .text ++ .flt 0 :: (exTableTexts.drop 10).map .text) := by
    decide +kernel
  refine ⟨fun m hm k _ => ⟨_, key m hm, by decide +kernel, ?_⟩, ?_⟩
  · refine .cons (show fileName "a/x.csv".toList = ['x'] by decide +kernel) ?_
    simp only [exTableTexts, List.take, List.drop, List.map]
    repeat' first | exact .nil | refine .cons (by first | exact rfl | (refine ⟨?_, ?_, ?_⟩ <;> decide +kernel)) ?_
  · have h : textExperiment (csvWrite [fileName "a/x.csv".toList :: exTableTexts])
        = .ok ([.str ['x']] ++ ([2, 1, 4, 0, 1 / 4, 3600, rd (1 / 100), 1, 0, 0, 5 / 2, 3, 3, 0] : List ℚ).map
            fun q => .num (.fin q)) := by
      have h : (textExperiment (csvWrite [fileName "a/x.csv".toList :: exTableTexts])).toOption
          = some ([.str ['x']] ++ ([2, 1, 4, 0, 1 / 4, 3600, rd (1 / 100), 1, 0, 0, 5 / 2, 3, 3, 0]
            : List ℚ).map fun q => .num (.fin q)) := by decide +kernel
      cases e : textExperiment (csvWrite [fileName "a/x.csv".toList :: exTableTexts]) with
      | error _ => rw [e] at h; cases h
      | ok v => rw [e] at h; cases h; rfl
    refine ⟨_, h, ⟨3, 3, 0, rfl, rfl, rfl, fun y hy => (exPipe_up hy).trans (by norm_num), _,
      exPipe_one.1, ?_, ?_⟩, ?_⟩
    · rw [exPipe_one.2]; norm_num
    · intro _ y hy
      rw [exPipe_one.2]
      exact (exPipe_up hy).trans (by norm_num)
    · intro l hl
      simp only [Back] at hl
      simp at hl
      rw [← hl]; norm_num

end Verif.Props
