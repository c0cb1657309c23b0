import Verif.Model.ExportTables
import Verif.Lemmas.CostRefiner
import Verif.Lemmas.BigM

/-!
# Lemmas on the loops of export_results.py
-/

namespace Verif.Model

/-! ## Reading all files -/

theorem readAll_get {fs : Files} {input : Txt} {ks : List ExpKey} {d d' : ExpDict}
    (h : readAll fs input ks d = .ok d') (k : ExpKey) :
    (k ∈ ks → readKey fs input k = assocGet d' k) ∧ (k ∉ ks → assocGet d' k = assocGet d k) := by
  induction ks generalizing d with
  | nil => cases h; simp
  | cons a ks ih =>
    unfold readAll at h
    cases hr : readKey fs input a with
    | error e => rw [hr] at h; cases h
    | ok r =>
      rw [hr] at h
      simp only [bind, Except.bind] at h
      obtain ⟨h1, h2⟩ := ih h
      by_cases hk : k ∈ ks
      · exact ⟨fun _ => h1 hk, fun hn => absurd (List.mem_cons_of_mem a hk) hn⟩
      · have h3 := h2 hk
        rw [assocGet_set] at h3
        by_cases hka : k = a
        · subst hka
          rw [if_pos rfl] at h3
          exact ⟨fun _ => by rw [hr, h3], fun hn => absurd List.mem_cons_self hn⟩
        · rw [if_neg hka] at h3
          exact ⟨fun hm => absurd hm (by simp [hka, hk]), fun _ => h3⟩

/-- A file that cannot be read stops the script. -/
theorem readAll_ok {fs : Files} {input : Txt} {ks : List ExpKey} {d d' : ExpDict}
    (h : readAll fs input ks d = .ok d') {k : ExpKey} (hk : k ∈ ks) :
    ∃ r, readKey fs input k = .ok r := by
  induction ks generalizing d with
  | nil => cases hk
  | cons a ks ih =>
    unfold readAll at h
    cases hr : readKey fs input a with
    | error e => rw [hr] at h; cases h
    | ok r =>
      rw [hr] at h
      rcases List.mem_cons.1 hk with rfl | hk
      · exact ⟨r, hr⟩
      · exact ih h hk

theorem readAll_total {fs : Files} {input : Txt} {ks : List ExpKey} (d : ExpDict)
    (h : ∀ k ∈ ks, ∃ r, readKey fs input k = .ok r) : ∃ d', readAll fs input ks d = .ok d' := by
  induction ks generalizing d with
  | nil => exact ⟨d, rfl⟩
  | cons a ks ih =>
    obtain ⟨r, hr⟩ := h a List.mem_cons_self
    obtain ⟨d', hd⟩ := ih (assocSet d a r) fun k hk => h k (List.mem_cons_of_mem a hk)
    exact ⟨d', by unfold readAll; rw [hr]; exact hd⟩

theorem mem_expKeys {p : ExportPar} {c : ℕ} {i : Txt} {s j : ℕ} {e : ℚ} {m : ℕ} :
    (c, i, s, j, e, m) ∈ expKeys p ↔ c ∈ p.kinds ∧ i ∈ p.instances ∧ s ∈ p.scenarios ∧ j ∈ p.ids
      ∧ e ∈ p.epsilons ∧ m ∈ exportMethods := by
  simp only [expKeys, List.mem_flatMap, List.mem_map, Prod.mk.injEq]
  constructor
  · rintro ⟨c', h1, i', h2, s', h3, j', h4, e', h5, m', h6, rfl, rfl, rfl, rfl, rfl, rfl⟩
    exact ⟨h1, h2, h3, h4, h5, h6⟩
  · rintro ⟨h1, h2, h3, h4, h5, h6⟩
    exact ⟨c, h1, i, h2, s, h3, j, h4, e, h5, m, h6, rfl, rfl, rfl, rfl, rfl, rfl⟩

/-! ## Writing rows -/

theorem pySet_ok {α : Type} {l l' : List α} {k : ℕ} {v : α} (h : pySet l k v = .ok l') :
    l'.length = l.length ∧ l'[k]? = some v ∧ ∀ q, q ≠ k → l'[q]? = l[q]? := by
  unfold pySet at h
  split at h
  · rename_i hk
    cases h
    refine ⟨by simp, by simp [hk], fun q hq => List.getElem?_set_ne (by omega)⟩
  · cases h

theorem bigMScen_spec {p : ExportPar} {d : ExpDict} {inst : Txt} {i : ℕ} {l : List ℕ} {s0 : ℕ}
    {first : Bool} {tables out : List (List Val)}
    (h : bigMScen p d inst i (l.zipIdx s0) first tables = .ok out) :
    out.length = tables.length
    ∧ (∀ k scen, l[k]? = some scen → ∃ row,
        bigMRow p d inst (if first = true ∧ k = 0 then printInstance inst else []) scen = .ok row
        ∧ out[s0 + k + i * p.scenarios.length]? = some row)
    ∧ ∀ q, (∀ k < l.length, q ≠ s0 + k + i * p.scenarios.length) → out[q]? = tables[q]? := by
  induction l generalizing s0 first tables with
  | nil => cases h; exact ⟨rfl, by simp, fun _ _ => rfl⟩
  | cons a l ih =>
    rw [List.zipIdx_cons] at h
    unfold bigMScen at h
    cases hr : bigMRow p d inst (if first = true then printInstance inst else []) a with
    | error e => rw [hr] at h; cases h
    | ok row =>
      rw [hr] at h
      simp only [bind, Except.bind] at h
      cases ht : pySet tables (s0 + i * p.scenarios.length) row with
      | error e => rw [ht] at h; cases h
      | ok t1 =>
        rw [ht] at h
        obtain ⟨a1, a2, a3⟩ := pySet_ok ht
        obtain ⟨b1, b2, b3⟩ := ih h
        refine ⟨b1.trans a1, fun k scen hk => ?_, fun q hq => ?_⟩
        · cases k with
          | zero =>
            simp only [List.getElem?_cons_zero, Option.some.injEq] at hk
            subst hk
            refine ⟨row, by simpa using hr, ?_⟩
            rw [Nat.add_zero, b3 _ (fun k hk => by omega), a2]
          | succ k =>
            obtain ⟨r, h1, h2⟩ := b2 k scen (by simpa using hk)
            refine ⟨r, by simpa using h1, ?_⟩
            rw [← h2]; congr 1; omega
        · rw [b3 q fun k hk => ?_, a3 q ?_]
          · have := hq 0 (by simp); simpa using this
          · have := hq (k + 1) (by simpa using hk); omega

theorem bigMInst_spec {p : ExportPar} {d : ExpDict} {l : List Txt} {i0 : ℕ}
    {tables out : List (List Val)} (h : bigMInst p d (l.zipIdx i0) tables = .ok out) :
    out.length = tables.length
    ∧ (∀ k inst, l[k]? = some inst → ∀ s scen, p.scenarios[s]? = some scen → ∃ row,
        bigMRow p d inst (if s = 0 then printInstance inst else []) scen = .ok row
        ∧ out[s + (i0 + k) * p.scenarios.length]? = some row)
    ∧ ∀ q, q < i0 * p.scenarios.length → out[q]? = tables[q]? := by
  induction l generalizing i0 tables with
  | nil => cases h; exact ⟨rfl, by simp, fun _ _ => rfl⟩
  | cons a l ih =>
    rw [List.zipIdx_cons] at h
    unfold bigMInst at h
    cases ht : bigMScen p d a i0 p.scenarios.zipIdx true tables with
    | error e => rw [ht] at h; cases h
    | ok t1 =>
      rw [ht] at h
      simp only [bind, Except.bind] at h
      obtain ⟨a1, a2, a3⟩ := bigMScen_spec ht
      obtain ⟨b1, b2, b3⟩ := ih h
      refine ⟨b1.trans a1, fun k inst hk s scen hs => ?_, fun q hq => ?_⟩
      · cases k with
        | zero =>
          simp only [List.getElem?_cons_zero, Option.some.injEq] at hk
          subst hk
          obtain ⟨row, h1, h2⟩ := a2 s scen hs
          refine ⟨row, by simpa using h1, ?_⟩
          have hlt := (List.getElem?_eq_some_iff.1 hs).1
          rw [Nat.add_zero, b3 _ (by rw [Nat.add_mul]; omega), ← h2, Nat.zero_add]
        | succ k =>
          obtain ⟨r, h1, h2⟩ := b2 k inst (by simpa using hk) s scen hs
          refine ⟨r, h1, ?_⟩
          rw [← h2]; congr 2; congr 1; omega
      · rw [b3 q (by rw [Nat.add_mul]; omega), a3 q fun k hk => by omega]

theorem summaryScen_spec {p : ExportPar} {d : ExpDict} {c : ℕ} {inst : Txt} {i : ℕ} {eps : ℚ}
    {e : ℕ} {l : List ℕ} {s0 : ℕ} {first firstEps : Bool} {tables : List (List Val)}
    {out : Bool × List (List Val)}
    (h : summaryScen p d c inst i eps e (l.zipIdx s0) first firstEps tables = .ok out) :
    out.2.length = tables.length
    ∧ out.1 = (if l = [] then first else false)
    ∧ (∀ k scen, l[k]? = some scen → ∃ row,
        summaryRow p d c inst scen eps
          [.str (if first = true ∧ k = 0 then printInstance inst else []),
            if firstEps = true ∧ k = 0 then .num (.fin eps) else .str [], .num (.fin scen)] = .ok row
        ∧ out.2[s0 + k + e * p.scenarios.length
            + i * p.scenarios.length * p.epsilons.length]? = some row)
    ∧ ∀ q, (∀ k < l.length, q ≠ s0 + k + e * p.scenarios.length
        + i * p.scenarios.length * p.epsilons.length) → out.2[q]? = tables[q]? := by
  induction l generalizing s0 first firstEps tables with
  | nil => cases h; exact ⟨rfl, by simp, by simp, fun _ _ => rfl⟩
  | cons a l ih =>
    rw [List.zipIdx_cons] at h
    unfold summaryScen at h
    simp only at h
    cases hr : summaryRow p d c inst a eps [.str (if first = true then printInstance inst else []),
            if firstEps = true then .num (.fin eps) else .str [], .num (.fin a)] with
    | error e => rw [hr] at h; cases h
    | ok row =>
      rw [hr] at h
      simp only [bind, Except.bind] at h
      cases ht : pySet tables (s0 + e * p.scenarios.length
          + i * p.scenarios.length * p.epsilons.length) row with
      | error e => rw [ht] at h; cases h
      | ok t1 =>
        rw [ht] at h
        obtain ⟨a1, a2, a3⟩ := pySet_ok ht
        obtain ⟨b1, b0, b2, b3⟩ := ih h
        refine ⟨b1.trans a1, by rw [b0]; simp, fun k scen hk => ?_, fun q hq => ?_⟩
        · cases k with
          | zero =>
            simp only [List.getElem?_cons_zero, Option.some.injEq] at hk
            subst hk
            refine ⟨row, by simpa using hr, ?_⟩
            rw [Nat.add_zero, b3 _ (fun k hk => by omega), a2]
          | succ k =>
            obtain ⟨r, h1, h2⟩ := b2 k scen (by simpa using hk)
            refine ⟨r, by simpa using h1, ?_⟩
            rw [← h2]; congr 1; omega
        · rw [b3 q fun k hk => ?_, a3 q ?_]
          · have := hq 0 (by simp); simpa using this
          · have := hq (k + 1) (by simpa using hk); omega

theorem summaryEps_spec {p : ExportPar} {d : ExpDict} {c : ℕ} {inst : Txt} {i : ℕ} {l : List ℚ}
    {e0 : ℕ} {first : Bool} {tables out : List (List Val)}
    (h : summaryEps p d c inst i (l.zipIdx e0) first tables = .ok out) :
    out.length = tables.length
    ∧ (∀ k eps, l[k]? = some eps → ∀ s scen, p.scenarios[s]? = some scen → ∃ row,
        summaryRow p d c inst scen eps
          [.str (if first = true ∧ k = 0 ∧ s = 0 then printInstance inst else []),
            if s = 0 then .num (.fin eps) else .str [], .num (.fin scen)] = .ok row
        ∧ out[s + (e0 + k) * p.scenarios.length
            + i * p.scenarios.length * p.epsilons.length]? = some row)
    ∧ ∀ q, (∀ k < l.length, ∀ s < p.scenarios.length, q ≠ s + (e0 + k) * p.scenarios.length
        + i * p.scenarios.length * p.epsilons.length) → out[q]? = tables[q]? := by
  induction l generalizing e0 first tables with
  | nil => cases h; exact ⟨rfl, by simp, fun _ _ => rfl⟩
  | cons a l ih =>
    rw [List.zipIdx_cons] at h
    unfold summaryEps at h
    cases ht : summaryScen p d c inst i a e0 p.scenarios.zipIdx first true tables with
    | error e => rw [ht] at h; cases h
    | ok t1 =>
      rw [ht] at h
      simp only [bind, Except.bind] at h
      obtain ⟨a1, a0, a2, a3⟩ := summaryScen_spec ht
      obtain ⟨b1, b2, b3⟩ := ih h
      refine ⟨b1.trans a1, fun k eps hk s scen hs => ?_, fun q hq => ?_⟩
      · have hlt := (List.getElem?_eq_some_iff.1 hs).1
        cases k with
        | zero =>
          simp only [List.getElem?_cons_zero, Option.some.injEq] at hk
          subst hk
          obtain ⟨row, h1, h2⟩ := a2 s scen hs
          refine ⟨row, by simpa using h1, ?_⟩
          rw [Nat.add_zero, b3 _ (fun k hk s' hs' => ?_), ← h2, Nat.zero_add]
          have : (e0 + 1 + k) * p.scenarios.length
              = e0 * p.scenarios.length + p.scenarios.length + k * p.scenarios.length := by ring
          have := Nat.zero_le (k * p.scenarios.length)
          omega
        | succ k =>
          obtain ⟨r, h1, h2⟩ := b2 k eps (by simpa using hk) s scen hs
          refine ⟨r, ?_, ?_⟩
          · have hne : p.scenarios ≠ [] := fun h0 => by rw [h0] at hlt; simp at hlt
            rw [a0, if_neg hne] at h1
            simpa using h1
          · rw [← h2]; congr 3; congr 1; omega
      · rw [b3 q fun k hk s hs => ?_, a3 q fun s hs => ?_]
        · have := hq 0 (by simp) s hs; simpa using this
        · have := hq (k + 1) (by simpa using hk) s hs
          rw [show e0 + 1 + k = e0 + (k + 1) by omega]; exact this

theorem summaryInst_spec {p : ExportPar} {d : ExpDict} {c : ℕ} {l : List Txt} {i0 : ℕ}
    {tables out : List (List Val)} (h : summaryInst p d c (l.zipIdx i0) tables = .ok out) :
    out.length = tables.length
    ∧ (∀ k inst, l[k]? = some inst → ∀ e eps, p.epsilons[e]? = some eps →
        ∀ s scen, p.scenarios[s]? = some scen → ∃ row,
        summaryRow p d c inst scen eps
          [.str (if e = 0 ∧ s = 0 then printInstance inst else []),
            if s = 0 then .num (.fin eps) else .str [], .num (.fin scen)] = .ok row
        ∧ out[s + e * p.scenarios.length
            + (i0 + k) * p.scenarios.length * p.epsilons.length]? = some row)
    ∧ ∀ q, q < i0 * p.scenarios.length * p.epsilons.length → out[q]? = tables[q]? := by
  induction l generalizing i0 tables with
  | nil => cases h; exact ⟨rfl, by simp, fun _ _ => rfl⟩
  | cons a l ih =>
    rw [List.zipIdx_cons] at h
    unfold summaryInst at h
    cases ht : summaryEps p d c a i0 p.epsilons.zipIdx true tables with
    | error e => rw [ht] at h; cases h
    | ok t1 =>
      rw [ht] at h
      simp only [bind, Except.bind] at h
      obtain ⟨a1, a2, a3⟩ := summaryEps_spec ht
      obtain ⟨b1, b2, b3⟩ := ih h
      have hmul : (i0 + 1) * p.scenarios.length * p.epsilons.length
          = i0 * p.scenarios.length * p.epsilons.length
            + p.epsilons.length * p.scenarios.length := by ring
      refine ⟨b1.trans a1, fun k inst hk e eps he s scen hs => ?_, fun q hq => ?_⟩
      · cases k with
        | zero =>
          simp only [List.getElem?_cons_zero, Option.some.injEq] at hk
          subst hk
          obtain ⟨row, h1, h2⟩ := a2 e eps he s scen hs
          refine ⟨row, by simpa using h1, ?_⟩
          have hlt := (List.getElem?_eq_some_iff.1 hs).1
          have hle := (List.getElem?_eq_some_iff.1 he).1
          have hpos : s + e * p.scenarios.length < p.epsilons.length * p.scenarios.length := by
            calc s + e * p.scenarios.length < (e + 1) * p.scenarios.length := by
                  rw [Nat.add_mul]; omega
              _ ≤ _ := Nat.mul_le_mul_right _ hle
          rw [Nat.add_zero, b3 _ (by omega), ← h2, Nat.zero_add]
        | succ k =>
          obtain ⟨r, h1, h2⟩ := b2 k inst (by simpa using hk) e eps he s scen hs
          refine ⟨r, h1, ?_⟩
          rw [← h2]; congr 4; omega
      · rw [b3 q (by omega), a3 q fun k hk s hs => by omega]

/-! ## Files -/

theorem mapM_getElem {α β : Type} {l : List α} {f : α → PyM β} {r : List β}
    (h : l.mapM f = .ok r) : r.length = l.length ∧ ∀ (k : ℕ) (a : α), l[k]? = some a →
      ∃ b, f a = .ok b ∧ r[k]? = some b := by
  induction l generalizing r with
  | nil =>
    rw [List.mapM_nil] at h
    cases h
    simp
  | cons a l ih =>
    rw [List.mapM_cons] at h
    cases hf : f a with
    | error e => rw [hf] at h; cases h
    | ok b =>
      cases hl : l.mapM f with
      | error e => rw [hf, hl] at h; cases h
      | ok r' =>
        rw [hf, hl] at h
        cases h
        obtain ⟨h1, h2⟩ := ih hl
        refine ⟨by simp [h1], fun k x hk => ?_⟩
        cases k with
        | zero => simp only [List.getElem?_cons_zero, Option.some.injEq] at hk; subst hk; exact ⟨b, hf, rfl⟩
        | succ k => exact h2 k x (by simpa using hk)

theorem pySlice_getElem {α : Type} {l : List α} {a b k : ℕ} (hk : a + k < b) :
    (pySlice l a b)[k]? = l[a + k]? := by
  unfold pySlice
  rw [List.getElem?_take_of_lt (by omega), List.getElem?_drop]

theorem pySlice_length {α : Type} {l : List α} {a b : ℕ} (hb : b ≤ l.length) :
    (pySlice l a b).length = b - a := by
  simp [pySlice]; omega

theorem writeParts_spec {p : ExportPar} {suffix : Txt} {offset : ℕ} {tables : List (List Val)}
    {files : List (Txt × List (List Val))} (h : writeParts p suffix offset tables = .ok files) :
    files.length = p.instances.length ∧ ∀ i inst, p.instances[i]? = some inst →
      files[i]? = some (p.output ++ inst ++ suffix,
        pySlice tables (offset * i) (offset * (1 + i))) := by
  obtain ⟨h1, h2⟩ := mapM_getElem h
  refine ⟨by simpa using h1, fun i inst hi => ?_⟩
  have hlt := (List.getElem?_eq_some_iff.1 hi).1
  obtain ⟨b, h3, h4⟩ := h2 i i (by simp [hlt])
  rw [pyGet_eq hi] at h3
  cases h3
  exact h4

end Verif.Model
