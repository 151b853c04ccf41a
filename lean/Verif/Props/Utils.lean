import Verif.Model.Utils
import Mathlib.Tactic.Linarith
import Mathlib.Data.List.GetD
/-!
C41, C58: nearest values and the root of the wiring tree.
-/
namespace Nilmtk

/-! ### C41 -/

theorem sorted_split (s : List Rat) (hs : s.Pairwise (· ≤ ·)) (x : Rat) :
    ∀ i y, s[i]? = some y → (i < s.countP (fun y => decide (y < x)) ↔ y < x) := by
  induction s with
  | nil => intro i y h; simp at h
  | cons a s ih =>
    intro i y h
    rw [List.pairwise_cons] at hs
    rw [List.countP_cons]
    by_cases ha : a < x
    · rw [if_pos (by simpa using ha)]
      cases i with
      | zero =>
        simp only [List.getElem?_cons_zero, Option.some.injEq] at h
        subst h
        constructor
        · intro _; exact ha
        · intro _; omega
      | succ i =>
        rw [List.getElem?_cons_succ] at h
        rw [← ih hs.2 i y h]
        omega
    · rw [if_neg (by simpa using ha)]
      have h0 : s.countP (fun y => decide (y < x)) = 0 := by
        rw [List.countP_eq_zero]
        intro z hz
        have := hs.1 z hz
        simp only [decide_eq_true_eq, not_lt] at ha ⊢
        linarith
      rw [h0]
      have hy : a ≤ y := by
        cases i with
        | zero => simp only [List.getElem?_cons_zero, Option.some.injEq] at h; exact le_of_eq h
        | succ i =>
          rw [List.getElem?_cons_succ] at h
          exact hs.1 y (List.mem_of_getElem? h)
      constructor
      · intro h; omega
      · intro h; exact absurd (lt_of_le_of_lt hy h) ha

theorem pairwise_get (s : List Rat) (hs : s.Pairwise (· ≤ ·)) (i j : Nat) (hij : i ≤ j) (hj : j < s.length) :
    s.getD i 0 ≤ s.getD j 0 := by
  rcases Nat.lt_or_eq_of_le hij with h | rfl
  · rw [List.getD_eq_getElem _ _ (by omega), List.getD_eq_getElem _ _ hj]
    exact List.pairwise_iff_getElem.1 hs i j (by omega) hj h
  · exact le_refl _

theorem findNearest1_spec (known : List Rat) (order : List Nat) (h : IsArgsort known order) (hne : known ≠ []) (x : Rat) :
    (findNearest1 known order x).1 < known.length ∧
    (findNearest1 known order x).2 = x - known.getD (findNearest1 known order x).1 0 ∧
    ∀ y ∈ known, |(findNearest1 known order x).2| ≤ |x - y| := by
  obtain ⟨hperm, hsort⟩ := h
  have hlen : order.length = known.length := by rw [hperm.length_eq, List.length_range]
  have hpos : 0 < known.length := List.length_pos_of_ne_nil hne
  set s := order.map (fun i => known.getD i 0) with hs
  have hslen : s.length = known.length := by rw [hs, List.length_map, hlen]
  set c := searchsortedLeft s x with hc
  have hcle : c ≤ s.length := List.countP_le_length
  set j := (if s.getD (min c (s.length - 1)) 0 - x ≤ x - s.getD (min (c - 1) (s.length - 1)) 0
    then min c (s.length - 1) else min (c - 1) (s.length - 1)) with hj
  have hjlt : j < s.length := by rw [hj]; split <;> omega
  have hres : findNearest1 known order x = (order.getD j 0, x - known.getD (order.getD j 0) 0) := rfl
  have hsj : s.getD j 0 = known.getD (order.getD j 0) 0 := by
    rw [List.getD_eq_getElem _ _ hjlt, List.getD_eq_getElem order _ (by omega)]
    simp only [hs, List.getElem_map]
  rw [hres]
  refine ⟨?_, rfl, ?_⟩
  · simp only
    have : order.getD j 0 ∈ order := by
      rw [List.getD_eq_getElem order _ (by omega)]
      exact List.getElem_mem _
    simpa using hperm.mem_iff.1 this
  · intro y hy
    simp only
    rw [← hsj]
    -- `y` is in the sorted list
    have hys : ∃ i, i < s.length ∧ s.getD i 0 = y := by
      obtain ⟨i, hi, rfl⟩ := List.getElem_of_mem hy
      have hio : i ∈ order := hperm.mem_iff.2 (by simpa using hi)
      obtain ⟨k, hk, hk'⟩ := List.getElem_of_mem hio
      refine ⟨k, by omega, ?_⟩
      rw [List.getD_eq_getElem _ _ (by omega)]
      simp only [hs, List.getElem_map, hk']
      rw [List.getD_eq_getElem _ _ hi]
    obtain ⟨i, hi, rfl⟩ := hys
    have hlt : ∀ k, k < s.length → (k < c ↔ s.getD k 0 < x) := by
      intro k hk
      have := sorted_split s hsort x k (s.getD k 0) (by rw [List.getD_eq_getElem _ _ hk, List.getElem?_eq_getElem hk])
      exact this
    have hmono := fun a b hab hb => pairwise_get s hsort a b hab hb
    -- bounds of `x - s[i]` by the two candidates
    have key : |x - s.getD j 0| ≤ |x - s.getD i 0| := by
      by_cases hci : i < c
      · -- below `x`
        have hix := (hlt i hi).1 hci
        have e2 : min (c - 1) (s.length - 1) = c - 1 := by omega
        have hl : s.getD (c - 1) 0 < x := (hlt (c - 1) (by omega)).1 (by omega)
        have hle : s.getD i 0 ≤ s.getD (c - 1) 0 := hmono i (c - 1) (by omega) (by omega)
        rw [abs_of_pos (by linarith : 0 < x - s.getD i 0)]
        rw [hj, e2]
        by_cases hcl : c < s.length
        · have e3 : min c (s.length - 1) = c := by omega
          have hu : x ≤ s.getD c 0 := by
            have := (hlt c hcl).not.1 (by omega)
            linarith
          rw [e3]
          split
          · rename_i hd
            rw [abs_of_nonpos (by linarith)]; linarith
          · rw [abs_of_nonneg (by linarith)]; linarith
        · have e3 : min c (s.length - 1) = c - 1 := by omega
          rw [e3, ite_self, abs_of_nonneg (by linarith)]; linarith
      · -- at or above `x`
        have hix : x ≤ s.getD i 0 := by
          have := (hlt i hi).not.1 hci
          linarith
        have hcl : c < s.length := by omega
        have e3 : min c (s.length - 1) = c := by omega
        have hu : x ≤ s.getD c 0 := by
          have := (hlt c hcl).not.1 (by omega)
          linarith
        have hle : s.getD c 0 ≤ s.getD i 0 := hmono c i (by omega) hi
        rw [abs_of_nonpos (by linarith : x - s.getD i 0 ≤ 0), hj, e3]
        by_cases hc0 : c = 0
        · have e2 : min (c - 1) (s.length - 1) = c := by omega
          rw [e2, ite_self, abs_of_nonpos (by linarith)]; linarith
        · have e2 : min (c - 1) (s.length - 1) = c - 1 := by omega
          have hl : s.getD (c - 1) 0 < x := (hlt (c - 1) (by omega)).1 (by omega)
          rw [e2]
          split
          · rw [abs_of_nonpos (by linarith)]; linarith
          · rename_i hd
            rw [abs_of_nonneg (by linarith)]; linarith
    exact key

/-- C41. For every value the index returned belongs to an element of `known` at minimal distance, and the residual is
the value minus that element. -/
theorem C41_nearest (known : List Rat) (order : List Nat) (h : IsArgsort known order) (hne : known ≠ [])
    (test : List Rat) :
    ∃ res, findNearest known order test = .ok res ∧ res.length = test.length ∧
      ∀ (j : Nat) x i r, test[j]? = some x → res[j]? = some (i, r) →
        ∃ z, known[i]? = some z ∧ r = x - z ∧ ∀ y ∈ known, |x - z| ≤ |x - y| := by
  refine ⟨test.map (findNearest1 known order), ?_, List.length_map .., ?_⟩
  · unfold findNearest
    rw [if_neg (by simp [hne])]
  · intro j x i r hx hr
    rw [List.getElem?_map, hx] at hr
    simp only [Option.map_some, Option.some.injEq] at hr
    obtain ⟨h1, h2, h3⟩ := findNearest1_spec known order h hne x
    rw [hr] at h1 h2 h3
    have hz : known[i]? = some (known.getD i 0) := by
      rw [List.getD_eq_getElem _ _ h1, List.getElem?_eq_getElem h1]
    refine ⟨known.getD i 0, hz, h2, ?_⟩
    intro y hy
    have := h3 y hy
    rw [h2] at this
    exact this

/-- C41. When two elements are equally near, the larger one is returned. -/
theorem C41_tie (known : List Rat) (order : List Nat) (h : IsArgsort known order) (hne : known ≠ [])
    (x z : Rat) (hz : known[(findNearest1 known order x).1]? = some z) (y : Rat) (hy : y ∈ known)
    (htie : |x - y| = |x - z|) : y ≤ z := by
  obtain ⟨hperm, hsort⟩ := h
  have hlen : order.length = known.length := by rw [hperm.length_eq, List.length_range]
  have hpos : 0 < known.length := List.length_pos_of_ne_nil hne
  set s := order.map (fun i => known.getD i 0) with hs
  have hslen : s.length = known.length := by rw [hs, List.length_map, hlen]
  set c := searchsortedLeft s x with hc
  have hcle : c ≤ s.length := List.countP_le_length
  set j := (if s.getD (min c (s.length - 1)) 0 - x ≤ x - s.getD (min (c - 1) (s.length - 1)) 0
    then min c (s.length - 1) else min (c - 1) (s.length - 1)) with hj
  have hjlt : j < s.length := by rw [hj]; split <;> omega
  have hres : findNearest1 known order x = (order.getD j 0, x - known.getD (order.getD j 0) 0) := rfl
  have hsj : s.getD j 0 = z := by
    rw [hres] at hz
    simp only at hz
    rw [List.getD_eq_getElem _ _ hjlt]
    simp only [hs, List.getElem_map]
    rw [List.getD_eq_getElem order _ (by omega)] at hz
    rw [List.getD_eq_getElem?_getD, hz]; rfl
  have hys : ∃ i, i < s.length ∧ s.getD i 0 = y := by
    obtain ⟨i, hi, rfl⟩ := List.getElem_of_mem hy
    have hio : i ∈ order := hperm.mem_iff.2 (by simpa using hi)
    obtain ⟨k, hk, hk'⟩ := List.getElem_of_mem hio
    refine ⟨k, by omega, ?_⟩
    rw [List.getD_eq_getElem _ _ (by omega)]
    simp only [hs, List.getElem_map, hk']
    rw [List.getD_eq_getElem _ _ hi]
  obtain ⟨i, hi, rfl⟩ := hys
  have hlt : ∀ k, k < s.length → (k < c ↔ s.getD k 0 < x) := by
    intro k hk
    exact sorted_split s hsort x k (s.getD k 0) (by rw [List.getD_eq_getElem _ _ hk, List.getElem?_eq_getElem hk])
  by_contra hgt
  rw [not_le] at hgt
  -- then `z` is below `x`, `y` above it, both at the same distance, and `y` would have been chosen
  have hzx : z < x ∧ x < s.getD i 0 := by
    rcases lt_trichotomy z x with h1 | h1 | h1
    · refine ⟨h1, ?_⟩
      by_contra h2
      rw [not_lt] at h2
      rw [abs_of_nonneg (by linarith), abs_of_pos (by linarith)] at htie
      linarith
    · subst h1
      rw [sub_self, abs_zero, abs_eq_zero] at htie
      linarith
    · rw [abs_of_neg (by linarith), abs_of_neg (by linarith)] at htie
      linarith
  have hci : ¬ i < c := fun h' => by have := (hlt i hi).1 h'; linarith [hzx.2]
  have hcl : c < s.length := by omega
  have hle : s.getD c 0 ≤ s.getD i 0 := pairwise_get s hsort c i (by omega) hi
  have hu : x ≤ s.getD c 0 := by
    have := (hlt c hcl).not.1 (by omega)
    linarith
  have e3 : min c (s.length - 1) = c := by omega
  have hjc : j < c := (hlt j hjlt).2 (by rw [hsj]; exact hzx.1)
  rw [e3] at hj
  split at hj
  · omega
  · rename_i hd
    rw [← hj, hsj] at hd
    rw [abs_of_neg (by linarith [hzx.2]), abs_of_pos (by linarith [hzx.1])] at htie
    linarith

/-- C41. An empty array of known values raises `IndexError` as soon as there is a value to look up. -/
theorem C41_empty (order : List Nat) (test : List Rat) (h : test ≠ []) :
    findNearest [] order test = .error .indexError := by
  unfold findNearest
  rw [if_pos ⟨rfl, h⟩]

theorem argsort_isArgsort (known : List Rat) : IsArgsort known (argsort known) := by
  refine ⟨List.perm_insertionSort _ _, ?_⟩
  rw [List.pairwise_map]
  have : Std.Total (fun i j => known.getD i 0 ≤ known.getD j 0) := ⟨fun a b => le_total _ _⟩
  have : IsTrans Nat (fun i j => known.getD i 0 ≤ known.getD j 0) := ⟨fun a b c h1 h2 => le_trans h1 h2⟩
  exact List.pairwise_insertionSort _ _

example : findNearest [30, 10, 20] (argsort [30, 10, 20]) [14, 15, 100, -3] =
    .ok [(1, 4), (2, -5), (0, 70), (1, -13)] := by decide +kernel

/-! ### C58 -/

/-- C58. The root is the one node without predecessor. -/
theorem C58_root_iff {α : Type} [DecidableEq α] (g : Graph α) (hn : g.nodes.Nodup) (r : α) :
    treeRoot g = .ok r ↔
      (r ∈ g.nodes ∧ ∀ p, (p, r) ∉ g.edges) ∧ ∀ n ∈ g.nodes, (∀ p, (p, n) ∉ g.edges) → n = r := by
  have hdeg : ∀ n, g.inDegree n = 0 ↔ ∀ p, (p, n) ∉ g.edges := by
    intro n
    unfold Graph.inDegree
    rw [List.countP_eq_zero]
    constructor
    · intro h p hp; exact h (p, n) hp (by simp)
    · rintro h ⟨p, m⟩ hp
      simp only [decide_eq_true_eq]
      rintro rfl
      exact h p hp
  have hmem : ∀ n, n ∈ g.nodes.filter (fun n => decide (g.inDegree n = 0)) ↔ n ∈ g.nodes ∧ ∀ p, (p, n) ∉ g.edges := by
    intro n
    rw [List.mem_filter, decide_eq_true_eq, hdeg]
  have hnd := hn.filter (fun n => decide (g.inDegree n = 0))
  unfold treeRoot
  generalize g.nodes.filter (fun n => decide (g.inDegree n = 0)) = roots at hmem hnd
  match roots with
  | [] =>
    simp only [reduceCtorEq, false_iff]
    rintro ⟨h, _⟩
    exact absurd ((hmem r).2 h) (by simp)
  | [a] =>
    simp only [Except.ok.injEq]
    constructor
    · rintro rfl
      exact ⟨(hmem a).1 List.mem_cons_self, fun n h1 h2 => by simpa using (hmem n).2 ⟨h1, h2⟩⟩
    · rintro ⟨h1, h2⟩
      have := (hmem a).1 List.mem_cons_self
      exact h2 a this.1 this.2
  | a :: b :: l =>
    simp only [reduceCtorEq, false_iff]
    rintro ⟨_, h2⟩
    have ha := (hmem a).1 List.mem_cons_self
    have hb := (hmem b).1 (List.mem_cons_of_mem _ List.mem_cons_self)
    rw [List.nodup_cons] at hnd
    apply hnd.1
    rw [h2 a ha.1 ha.2, ← h2 b hb.1 hb.2]
    exact List.mem_cons_self

/-- C58. `RuntimeError` exactly when there is no node without predecessor, or more than one. -/
theorem C58_error_iff {α : Type} [DecidableEq α] (g : Graph α) (hn : g.nodes.Nodup) :
    treeRoot g = .error .runtimeError ↔ ¬ ∃ r, (r ∈ g.nodes ∧ ∀ p, (p, r) ∉ g.edges) ∧
      ∀ n ∈ g.nodes, (∀ p, (p, n) ∉ g.edges) → n = r := by
  have h := C58_root_iff g hn
  cases ht : treeRoot g with
  | ok r =>
    simp only [reduceCtorEq, false_iff, not_not]
    exact ⟨r, (h r).1 ht⟩
  | error e =>
    have he : e = .runtimeError := by
      unfold treeRoot at ht
      split at ht <;> cases ht <;> rfl
    subst he
    simp only [true_iff]
    rintro ⟨r, hr⟩
    rw [(h r).2 hr] at ht
    cases ht

/-- C58. The nodes next to the root are the ones with an edge from it. -/
theorem C58_adjacent {α : Type} [DecidableEq α] (g : Graph α) (r : α) (h : treeRoot g = .ok r) :
    ∃ l, nodesAdjacentToRoot g = .ok l ∧ ∀ n, n ∈ l ↔ (r, n) ∈ g.edges := by
  refine ⟨_, by unfold nodesAdjacentToRoot; rw [h], ?_⟩
  intro n
  simp only [List.mem_map, List.mem_filter, decide_eq_true_eq]
  constructor
  · rintro ⟨⟨a, b⟩, ⟨h1, h2⟩, h3⟩
    simp only at h2 h3
    subst h2; subst h3
    exact h1
  · intro h; exact ⟨(r, n), ⟨h, rfl⟩, rfl⟩

example : treeRoot (⟨[1, 2, 3], [(2, 1), (2, 3)]⟩ : Graph Nat) = .ok 2 := by decide
example : treeRoot (⟨[1, 2], [(1, 2), (2, 1)]⟩ : Graph Nat) = .error .runtimeError := by decide

end Nilmtk
