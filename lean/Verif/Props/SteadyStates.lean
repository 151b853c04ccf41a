import Verif.Model.SteadyStates
import Mathlib.Data.List.GetD
import Mathlib.Data.List.Chain
import Mathlib.Tactic.Linarith
import Mathlib.Tactic.FieldSimp
import Mathlib.Tactic.Ring
import Mathlib.Tactic.ByContra
/-!
C48: steady states and transitions.
-/
namespace Nilmtk

/-- Some component of the vector is larger in size than the level. -/
def Exceeds (level : Rat) (v : List Rat) : Prop := ∃ x ∈ v, level < |x|

theorem exceeds_iff (level : Rat) (v : List Rat) : exceeds level v = true ↔ Exceeds level v := by
  unfold exceeds Exceeds
  rw [List.any_eq_true]
  simp only [decide_eq_true_eq]

/-- Two consecutive rows differ by more than the threshold in some column. -/
def Jump (threshold : Rat) (a b : PowerRow) : Prop := Exceeds threshold (List.zipWith (fun x y => x - y) b.2 a.2)

/-- `s` is the column-wise mean of the rows. -/
def MeanOf (m : Nat) (block : List PowerRow) (s : List Rat) : Prop :=
  s.length = m ∧ ∀ c, c < m → s.getD c 0 * block.length = (block.map (fun r => r.2.getD c 0)).sum

/-- `s` is the mean of a maximal steady run of the data: a non-empty contiguous block without jumps, beginning at the start
of the data or with a jump, and ending at the end of the data or before a jump. `a` is the time at which the block begins. -/
def SteadyRun (m : Nat) (threshold : Rat) (rows : List PowerRow) (s : List Rat) (a : Int) : Prop :=
  ∃ (pre : List PowerRow) (x : PowerRow) (xs post : List PowerRow), rows = pre ++ (x :: xs) ++ post ∧ x.1 = a ∧
    (x :: xs).IsChain (fun p q => ¬ Jump threshold p q) ∧
    (∀ p, pre.getLast? = some p → Jump threshold p x) ∧
    (∀ q, post.head? = some q → Jump threshold ((x :: xs).getLast (by simp)) q) ∧
    MeanOf m (x :: xs) s

/-! ### Times, sizes and noise, for all thresholds -/

/-- What is recorded: same time on both sides, taken from the data; the transition is above the noise level. -/
structure EdgeInv (noise : Rat) (t0 : Int) (done : List PowerRow) (s : SSState) : Prop where
  both : List.Forall₂ (fun st tr => st.1 = tr.1 ∧ Exceeds noise tr.2) s.steady s.transitions
  sorted : (s.steady.map (fun e => e.1)).Pairwise (fun a b => a ≤ b)
  le : ∀ e ∈ s.steady, e.1 ≤ s.time
  mem : ∀ e ∈ s.steady, e.1 = t0 ∨ e.1 ∈ done.map (fun r => r.1)
  time : s.time = t0 ∨ s.time ∈ done.map (fun r => r.1)

theorem EdgeInv.record {noise : Rat} {t0 : Int} {done : List PowerRow} {s : SSState} (h : EdgeInv noise t0 done s) :
    EdgeInv noise t0 done (recordEdge noise s) := by
  unfold recordEdge
  by_cases he : exceeds noise (vsub s.est s.last) = true
  · rw [if_pos he]
    refine ⟨?_, ?_, ?_, ?_, h.time⟩
    · exact List.rel_append h.both (List.Forall₂.cons ⟨rfl, (exceeds_iff _ _).1 he⟩ List.Forall₂.nil)
    · simp only [List.map_append, List.map_cons, List.map_nil]
      rw [List.pairwise_append]
      refine ⟨h.sorted, by simp, ?_⟩
      intro a ha b hb
      obtain ⟨e, he', rfl⟩ := List.mem_map.1 ha
      rw [List.mem_singleton.1 hb]
      exact h.le e he'
    · intro e he'
      rcases List.mem_append.1 he' with h' | h'
      · exact h.le e h'
      · rw [List.mem_singleton.1 h']
    · intro e he'
      rcases List.mem_append.1 he' with h' | h'
      · exact h.mem e h'
      · rw [List.mem_singleton.1 h']; exact h.time
  · rw [if_neg he]; exact h

theorem recordEdge_time (noise : Rat) (s : SSState) : (recordEdge noise s).time = s.time := by
  unfold recordEdge; split <;> rfl

theorem ssStep_edge (threshold noise : Rat) (t0 : Int) (done : List PowerRow) (s : SSState) (r : PowerRow)
    (h : EdgeInv noise t0 done s) (h0 : t0 ≤ r.1) (hr : ∀ d ∈ done, d.1 ≤ r.1) :
    EdgeInv noise t0 (done ++ [r]) (ssStep threshold noise s r) := by
  have hmono : ∀ {x : Int}, (x = t0 ∨ x ∈ done.map (fun r => r.1)) → (x = t0 ∨ x ∈ (done ++ [r]).map (fun r => r.1)) := by
    rintro x (hx | hx)
    · exact Or.inl hx
    · right; rw [List.map_append]; exact List.mem_append_left _ hx
  have hle : ∀ {x : Int}, (x = t0 ∨ x ∈ done.map (fun r => r.1)) → x ≤ r.1 := by
    rintro x (hx | hx)
    · omega
    · obtain ⟨d, hd, rfl⟩ := List.mem_map.1 hx; exact hr d hd
  unfold ssStep
  simp only []
  by_cases hc : (exceeds threshold (vsub (r.2.take 2) s.prev) && !s.ongoing) = true
  · rw [if_pos hc]
    have h2 := h.record
    refine ⟨h2.both, h2.sorted, ?_, fun e he => hmono (h2.mem e he), ?_⟩
    · intro e he; exact hle (h2.mem e he)
    · right
      show r.1 ∈ _
      rw [List.map_append]; exact List.mem_append_right _ (by simp)
  · rw [if_neg hc]
    exact ⟨h.both, h.sorted, h.le, fun e he => hmono (h.mem e he), hmono h.time⟩

theorem ssFold_edge (threshold noise : Rat) (t0 : Int) (rest done : List PowerRow) (s : SSState)
    (h : EdgeInv noise t0 done s) (h0 : ∀ r ∈ rest, t0 ≤ r.1)
    (hr : (done ++ rest).Pairwise (fun a b => a.1 ≤ b.1)) :
    EdgeInv noise t0 (done ++ rest) (rest.foldl (ssStep threshold noise) s) := by
  induction rest generalizing done s with
  | nil => simpa using h
  | cons r rest ih =>
    have h2 : done ++ r :: rest = (done ++ [r]) ++ rest := by simp
    rw [List.foldl_cons, h2]
    have hd : ∀ d ∈ done, d.1 ≤ r.1 := fun d hd => (List.pairwise_append.1 hr).2.2 d hd r List.mem_cons_self
    rw [h2] at hr
    exact ih _ _ (ssStep_edge threshold noise t0 done s r h (h0 r List.mem_cons_self) hd)
      (fun r' hr' => h0 r' (List.mem_cons_of_mem _ hr')) hr

/-- The state at the end of the loop and after the last edge. -/
def ssFinal (m : Nat) (threshold noise : Rat) (rows : List PowerRow) (first : PowerRow) : SSState :=
  recordEdge noise (rows.foldl (ssStep threshold noise) (ssInit m first.1))

/-- A result is what was recorded, possibly without the first edge. -/
theorem findSteadyStates_ok (m : Nat) (threshold noise : Rat) (rows : List PowerRow)
    (st tr : List (Int × List Rat)) (h : findSteadyStates m threshold noise rows = .ok (st, tr)) :
    ∃ first rest, rows = first :: rest ∧ m < 3 ∧
      ∃ k, st = (ssFinal m threshold noise rows first).steady.drop k ∧
        tr = (ssFinal m threshold noise rows first).transitions.drop k ∧
        (∀ x ∈ (ssFinal m threshold noise rows first).steady.take k, (∃ y ∈ x.2, noise < y) ∧ x.1 = first.1) ∧
        (k = 0 → ∀ x, (ssFinal m threshold noise rows first).steady.head? = some x →
          (ssFinal m threshold noise rows first).transitions.head?.map Prod.fst = some x.1 →
          ¬ ((∃ y ∈ x.2, noise < y) ∧ x.1 = first.1)) ∧
        (ssFinal m threshold noise rows first).steady ≠ [] := by
  cases rows with
  | nil => cases h
  | cons first rest =>
    refine ⟨first, rest, rfl, ?_⟩
    unfold findSteadyStates at h
    simp only [] at h
    by_cases hm : 3 ≤ m
    · rw [if_pos hm] at h; cases h
    · rw [if_neg hm] at h
      refine ⟨by omega, ?_⟩
      rw [show recordEdge noise ((first :: rest).foldl (ssStep threshold noise) (ssInit m first.1))
        = ssFinal m threshold noise (first :: rest) first from rfl] at h
      generalize ssFinal m threshold noise (first :: rest) first = f at h ⊢
      cases hs : f.steady with
      | nil => rw [hs] at h; simp only [] at h; cases h
      | cons a l =>
        cases ht : f.transitions with
        | nil => rw [hs, ht] at h; simp only [] at h; cases h
        | cons b l' =>
          rw [hs, ht] at h
          simp only [] at h
          have hany : (a.2.any (fun x => decide (noise < x)) = true) ↔ ∃ y ∈ a.2, noise < y := by
            rw [List.any_eq_true]; simp only [decide_eq_true_eq]
          by_cases hc : (a.2.any (fun x => decide (noise < x)) = true ∧ b.1 = a.1 ∧ a.1 = first.1)
          · rw [if_pos hc] at h
            cases h
            refine ⟨1, rfl, rfl, ?_, fun h0 => absurd h0 (by decide), by simp⟩
            intro x hx
            simp only [List.take_succ_cons, List.take_zero, List.mem_singleton] at hx
            rw [hx]
            exact ⟨hany.1 hc.1, hc.2.2⟩
          · rw [if_neg hc] at h
            cases h
            refine ⟨0, rfl, rfl, by simp, ?_, by simp⟩
            intro _ x hx hb
            simp only [List.head?_cons, Option.some.injEq, Option.map_some] at hx hb
            rw [← hx] at hb ⊢
            rintro ⟨h1, h2⟩
            exact hc ⟨hany.2 h1, hb, h2⟩

theorem ssFinal_edge (m : Nat) (threshold noise : Rat) (first : PowerRow) (rest : List PowerRow)
    (hr : (first :: rest).Pairwise (fun a b => a.1 ≤ b.1)) :
    EdgeInv noise first.1 (first :: rest) (ssFinal m threshold noise (first :: rest) first) := by
  unfold ssFinal
  apply EdgeInv.record
  have h0 : EdgeInv noise first.1 [] (ssInit m first.1) :=
    ⟨List.Forall₂.nil, List.Pairwise.nil, (fun e he => by cases he), (fun e he => by cases he), Or.inl rfl⟩
  have := ssFold_edge threshold noise first.1 (first :: rest) [] _ h0 ?_ hr
  · exact this
  · intro r hr'
    rcases List.mem_cons.1 hr' with h' | h'
    · rw [h']
    · exact (List.pairwise_cons.1 hr).1 r h'

theorem fst_eq_of_forall₂ {a b : List (Int × List Rat)} (h : List.Forall₂ (fun x y => x.1 = y.1) a b) :
    a.map Prod.fst = b.map Prod.fst := by
  induction h with
  | nil => rfl
  | cons h1 _ ih => simp only [List.map_cons, h1, ih]

/-- For every data frame with sorted index and all thresholds: whenever there is a result, steady states and transitions
come in equal number and at the same times, the times are non-decreasing and occur in the data, and every transition
exceeds the noise level in some component. -/
theorem C48_reported_partial (m : Nat) (threshold noise : Rat) (rows : List PowerRow) (st tr : List (Int × List Rat))
    (hr : rows.Pairwise (fun a b => a.1 ≤ b.1)) (h : findSteadyStates m threshold noise rows = .ok (st, tr)) :
    st.length = tr.length ∧ st.map Prod.fst = tr.map Prod.fst ∧
    (tr.map Prod.fst).Pairwise (fun a b => a ≤ b) ∧
    (∀ e ∈ tr, (∃ r ∈ rows, r.1 = e.1) ∧ ∃ x ∈ e.2, noise < |x|) := by
  obtain ⟨first, rest, rfl, _, k, rfl, rfl, _⟩ := findSteadyStates_ok m threshold noise rows st tr h
  have hinv := ssFinal_edge m threshold noise first rest hr
  generalize ssFinal m threshold noise (first :: rest) first = f at hinv
  have hboth := List.forall₂_drop k hinv.both
  have heq : (f.steady.drop k).map Prod.fst = (f.transitions.drop k).map Prod.fst := by
    refine fst_eq_of_forall₂ (hboth.imp (fun _ _ h' => h'.1))
  refine ⟨hboth.length_eq, heq, ?_, ?_⟩
  · rw [← heq, List.map_drop]
    exact hinv.sorted.sublist (List.drop_sublist _ _)
  · intro e he
    obtain ⟨i, hi⟩ := List.mem_iff_getElem?.1 he
    have hlen := hboth.length_eq
    have hil := (List.getElem?_eq_some_iff.1 hi).1
    obtain ⟨hil', rfl⟩ := List.getElem?_eq_some_iff.1 hi
    have hrel := hboth.get (i := i) (by omega) hil'
    simp only [List.get_eq_getElem] at hrel
    refine ⟨?_, hrel.2⟩
    have hmem : (f.steady.drop k)[i]'(by omega) ∈ f.steady :=
      List.mem_of_mem_drop (List.getElem_mem _)
    rw [← hrel.1]
    rcases hinv.mem _ hmem with h' | h'
    · exact ⟨first, List.mem_cons_self, h'.symm⟩
    · obtain ⟨r, hr1, hr2⟩ := List.mem_map.1 h'
      exact ⟨r, hr1, hr2⟩

/-! ### What the numbers are -/

/-- A run that has ended: as `SteadyRun`, with a row after it. -/
def ClosedRun (m : Nat) (threshold : Rat) (rows : List PowerRow) (s : List Rat) (a : Int) : Prop :=
  ∃ (pre : List PowerRow) (x : PowerRow) (xs : List PowerRow) (y : PowerRow) (post : List PowerRow),
    rows = pre ++ (x :: xs) ++ y :: post ∧ x.1 = a ∧
    (x :: xs).IsChain (fun p q => ¬ Jump threshold p q) ∧
    (∀ p, pre.getLast? = some p → Jump threshold p x) ∧
    Jump threshold ((x :: xs).getLast (by simp)) y ∧
    MeanOf m (x :: xs) s

/-- The run in progress. -/
def OpenRun (m : Nat) (threshold : Rat) (done : List PowerRow) (s : SSState) : Prop :=
  ∃ (pre : List PowerRow) (x : PowerRow) (xs : List PowerRow),
    done = pre ++ (x :: xs) ∧ s.n = (x :: xs).length ∧ s.time ≤ x.1 ∧
    (x :: xs).IsChain (fun p q => ¬ Jump threshold p q) ∧
    (∀ p, pre.getLast? = some p → Jump threshold p x) ∧
    MeanOf m (x :: xs) s.est ∧ s.prev = ((x :: xs).getLast (by simp)).2

theorem ClosedRun.mono {m : Nat} {threshold : Rat} {rows : List PowerRow} {s : List Rat} {a : Int}
    (h : ClosedRun m threshold rows s a) (r : PowerRow) : ClosedRun m threshold (rows ++ [r]) s a := by
  obtain ⟨pre, x, xs, y, post, h1, h2, h3, h4, h5, h6⟩ := h
  refine ⟨pre, x, xs, y, post ++ [r], ?_, h2, h3, h4, h5, h6⟩
  rw [h1]; simp

theorem ClosedRun.run {m : Nat} {threshold : Rat} {rows : List PowerRow} {s : List Rat} {a : Int}
    (h : ClosedRun m threshold rows s a) : SteadyRun m threshold rows s a := by
  obtain ⟨pre, x, xs, y, post, h1, h2, h3, h4, h5, h6⟩ := h
  refine ⟨pre, x, xs, y :: post, h1, h2, h3, h4, ?_, h6⟩
  intro q hq
  simp only [List.head?_cons, Option.some.injEq] at hq
  rw [← hq]; exact h5

/-- A run of either kind, as needed before and at the end. -/
def EdgeOk (run : List Rat → Int → Prop) (m : Nat) (st tr : Int × List Rat) : Prop :=
  st.1 = tr.1 ∧ (∃ a, st.1 ≤ a ∧ run st.2 a) ∧
    ∃ l, tr.2 = List.zipWith (fun x y => x - y) st.2 l ∧ (l = List.replicate m 0 ∨ ∃ a, a < st.1 ∧ run l a)

structure RunInv (m : Nat) (threshold noise : Rat) (t0 : Int) (done : List PowerRow) (s : SSState) : Prop where
  start : done = [] → s.est = List.replicate m 0 ∧ s.prev = List.replicate m 0 ∧ s.time = t0 ∧ s.n = 0 ∧
    s.last = List.replicate m 0 ∧ s.ongoing = false
  open_ : done ≠ [] → OpenRun m threshold done s
  last : s.last = List.replicate m 0 ∨ ∃ a, a < s.time ∧ ClosedRun m threshold done s.last a
  edges : List.Forall₂ (EdgeOk (ClosedRun m threshold done) m) s.steady s.transitions
  strict : (s.steady.map (fun e => e.1)).Pairwise (fun a b => a < b)
  lt : ∀ e ∈ s.steady, e.1 < s.time

theorem zipWith_getD (f : Rat → Rat → Rat) (a b : List Rat) (m c : Nat) (ha : a.length = m) (hb : b.length = m)
    (hc : c < m) : (List.zipWith f a b).getD c 0 = f (a.getD c 0) (b.getD c 0) := by
  rw [List.getD_eq_getElem _ _ (by rw [List.length_zipWith]; omega), List.getD_eq_getElem _ _ (by omega),
    List.getD_eq_getElem _ _ (by omega), List.getElem_zipWith]

theorem exceeds_zero (noise : Rat) (hn : 0 ≤ noise) (m : Nat) :
    exceeds noise (vsub (List.replicate m 0) (List.replicate m 0)) = false := by
  unfold exceeds vsub
  rw [List.any_eq_false]
  intro x hx
  have hx0 : x = 0 := by
    rw [List.zipWith_replicate, List.mem_replicate] at hx
    rw [hx.2]; norm_num
  rw [hx0]
  simp [hn]

theorem meanOf_single (m : Nat) (r : PowerRow) (hr : r.2.length = m) (e : List Rat) (he : e.length = m) :
    MeanOf m [r] (List.zipWith (fun e x => (((0 : Nat) : Rat) * e + x) / (((0 : Nat) : Rat) + 1)) e r.2) := by
  refine ⟨by rw [List.length_zipWith]; omega, fun c hc => ?_⟩
  rw [zipWith_getD _ _ _ m c he hr hc]
  simp

theorem meanOf_extend (m : Nat) (block : List PowerRow) (r : PowerRow) (hr : r.2.length = m) (e : List Rat)
    (h : MeanOf m block e) :
    MeanOf m (block ++ [r])
      (List.zipWith (fun e x => ((block.length : Rat) * e + x) / ((block.length : Rat) + 1)) e r.2) := by
  obtain ⟨he, hm⟩ := h
  refine ⟨by rw [List.length_zipWith]; omega, fun c hc => ?_⟩
  rw [zipWith_getD _ _ _ m c he hr hc, List.map_append, List.sum_append, ← hm c hc, List.length_append]
  have hpos : ((block.length : Rat) + 1) ≠ 0 := by positivity
  simp only [List.length_cons, List.length_nil, List.map_cons, List.map_nil, List.sum_cons, List.sum_nil, Nat.cast_add,
    Nat.cast_one, zero_add, add_zero]
  rw [div_mul_cancel₀ _ hpos]
  ring

theorem ssStep_run (m : Nat) (hm : m < 3) (threshold noise : Rat) (hn : 0 ≤ noise) (t0 : Int) (done : List PowerRow)
    (s : SSState) (r : PowerRow) (h : RunInv m threshold noise t0 done s) (h0 : t0 ≤ r.1)
    (hd : ∀ d ∈ done, d.1 < r.1) (hlen : r.2.length = m) :
    RunInv m threshold noise t0 (done ++ [r]) (ssStep threshold noise s r) := by
  have htake : r.2.take 2 = r.2 := List.take_of_length_le (by omega)
  have hestlen : s.est.length = m := by
    by_cases hdn : done = []
    · rw [(h.start hdn).1, List.length_replicate]
    · obtain ⟨_, _, _, _, _, _, _, _, hme, _⟩ := h.open_ hdn
      exact hme.1
  have htime : done ≠ [] → s.time < r.1 := by
    intro hdn
    obtain ⟨pre, x, xs, hdone, _, ht, _⟩ := h.open_ hdn
    have := hd x (by rw [hdone]; simp)
    omega
  have hmono : List.Forall₂ (EdgeOk (ClosedRun m threshold (done ++ [r])) m) s.steady s.transitions := by
    refine h.edges.imp ?_
    rintro st tr ⟨e1, ⟨a, e2, e3⟩, l, e4, e5⟩
    refine ⟨e1, ⟨a, e2, e3.mono r⟩, l, e4, ?_⟩
    rcases e5 with e5 | ⟨a', e5, e6⟩
    · exact Or.inl e5
    · exact Or.inr ⟨a', e5, e6.mono r⟩
  have hclose : done ≠ [] → exceeds threshold (vsub r.2 s.prev) = true →
      ∃ a, s.time ≤ a ∧ a < r.1 ∧ ClosedRun m threshold (done ++ [r]) s.est a := by
    intro hdn hj
    obtain ⟨pre, x, xs, hdone, _, ht, hch, hpre, hmean, hprev⟩ := h.open_ hdn
    refine ⟨x.1, ht, hd x (by rw [hdone]; simp), pre, x, xs, r, [], by rw [hdone], rfl, hch, hpre, ?_, hmean⟩
    rw [exceeds_iff, hprev] at hj
    exact hj
  unfold ssStep
  simp only [htake]
  cases hi : exceeds threshold (vsub r.2 s.prev) with
  | false =>
    simp only [Bool.false_and, Bool.false_eq_true, if_false]
    refine ⟨fun hc => absurd hc (by simp), fun _ => ?_, ?_, hmono, h.strict, h.lt⟩
    · by_cases hdn : done = []
      · obtain ⟨_, _, s3, s4, _⟩ := h.start hdn
        refine ⟨[], r, [], by rw [hdn], by simp [s4], by simp only [s3]; exact h0, List.IsChain.singleton _, by simp,
          ?_, rfl⟩
        simp only [s4]
        exact meanOf_single m r hlen s.est hestlen
      · obtain ⟨pre, x, xs, hdone, hn', ht, hch, hpre, hmean, hprev⟩ := h.open_ hdn
        have hlast : (x :: (xs ++ [r])).getLast (by simp) = r := by simp
        refine ⟨pre, x, xs ++ [r], by rw [hdone]; simp, by simp [hn'], ht, ?_, hpre, ?_, by rw [hlast]⟩
        · rw [← List.cons_append, List.isChain_append]
          refine ⟨hch, List.IsChain.singleton _, ?_⟩
          intro p hp q hq
          simp only [List.head?_cons, Option.mem_def, Option.some.injEq] at hq
          rw [← hq]
          have hp' : p = (x :: xs).getLast (by simp) := by
            rw [List.getLast?_eq_some_getLast (by simp)] at hp
            simpa using hp.symm
          rw [hp']
          intro hj
          rw [hprev] at hi
          have hi' : exceeds threshold (vsub r.2 ((x :: xs).getLast (by simp)).2) = true := (exceeds_iff _ _).2 hj
          rw [hi'] at hi
          cases hi
        · rw [← List.cons_append]
          simp only [hn']
          exact meanOf_extend m (x :: xs) r hlen s.est hmean
    · rcases h.last with hl | ⟨a, ha, hl⟩
      · exact Or.inl hl
      · exact Or.inr ⟨a, ha, hl.mono r⟩
  | true =>
    simp only [Bool.true_and, if_true]
    have hpre : ∀ p, done.getLast? = some p → Jump threshold p r := by
      intro p hp
      have hdn : done ≠ [] := by intro hc; rw [hc] at hp; cases hp
      obtain ⟨pre, x, xs, hdone, _, _, _, _, _, hprev⟩ := h.open_ hdn
      have : p = (x :: xs).getLast (by simp) := by
        rw [hdone, List.getLast?_append_of_ne_nil _ (by simp), List.getLast?_eq_some_getLast (by simp)] at hp
        simpa using hp.symm
      rw [this]
      rw [hprev] at hi
      exact (exceeds_iff _ _).1 hi
    cases ho : s.ongoing with
    | true =>
      simp only [Bool.not_true, Bool.false_eq_true, if_false]
      have hdn : done ≠ [] := by
        intro hc
        rw [(h.start hc).2.2.2.2.2] at ho; cases ho
      refine ⟨fun hc => absurd hc (by simp), fun _ => ?_, ?_, hmono, h.strict, h.lt⟩
      · refine ⟨done, r, [], rfl, rfl, ?_, List.IsChain.singleton _, hpre, ?_, rfl⟩
        · exact le_of_lt (htime hdn)
        · exact meanOf_single m r hlen s.est hestlen
      · rcases h.last with hl | ⟨a, ha, hl⟩
        · exact Or.inl hl
        · exact Or.inr ⟨a, ha, hl.mono r⟩
    | false =>
      simp only [Bool.not_false, if_true]
      refine ⟨fun hc => absurd hc (by simp), fun _ => ?_, ?_, ?_, ?_, ?_⟩
      · refine ⟨done, r, [], rfl, rfl, le_refl _, List.IsChain.singleton _, hpre, ?_, rfl⟩
        have : (recordEdge noise s).est = s.est := by unfold recordEdge; split <;> rfl
        simp only [this]
        exact meanOf_single m r hlen s.est hestlen
      · by_cases hdn : done = []
        · left; exact (h.start hdn).1
        · right
          obtain ⟨a, _, ha, hcl⟩ := hclose hdn hi
          exact ⟨a, ha, hcl⟩
      · show List.Forall₂ _ (recordEdge noise s).steady (recordEdge noise s).transitions
        unfold recordEdge
        by_cases he : exceeds noise (vsub s.est s.last) = true
        · rw [if_pos he]
          have hdn : done ≠ [] := by
            intro hc
            rw [(h.start hc).1, (h.start hc).2.2.2.2.1, exceeds_zero noise hn] at he
            cases he
          obtain ⟨a, hta, _, hcl⟩ := hclose hdn hi
          refine List.rel_append hmono (List.Forall₂.cons ⟨rfl, ⟨a, hta, hcl⟩, s.last, rfl, ?_⟩ List.Forall₂.nil)
          rcases h.last with hl | ⟨a', ha', hl⟩
          · exact Or.inl hl
          · exact Or.inr ⟨a', ha', hl.mono r⟩
        · rw [if_neg he]; exact hmono
      · show ((recordEdge noise s).steady.map (fun e => e.1)).Pairwise _
        unfold recordEdge
        split
        · simp only [List.map_append, List.map_cons, List.map_nil]
          rw [List.pairwise_append]
          refine ⟨h.strict, by simp, ?_⟩
          intro a ha b hb
          obtain ⟨e, he', rfl⟩ := List.mem_map.1 ha
          rw [List.mem_singleton.1 hb]
          exact h.lt e he'
        · exact h.strict
      · show ∀ e ∈ (recordEdge noise s).steady, e.1 < r.1
        by_cases hdn : done = []
        · have : recordEdge noise s = s := by
            unfold recordEdge
            rw [(h.start hdn).1, (h.start hdn).2.2.2.2.1, exceeds_zero noise hn]
            rfl
          rw [this]
          intro e he
          have := h.lt e he
          rw [(h.start hdn).2.2.1] at this
          omega
        · intro e he
          have ht := htime hdn
          unfold recordEdge at he
          split at he
          · rcases List.mem_append.1 he with h' | h'
            · have := h.lt e h'; omega
            · rw [List.mem_singleton.1 h']; exact ht
          · have := h.lt e he; omega

theorem ssFold_run (m : Nat) (hm : m < 3) (threshold noise : Rat) (hn : 0 ≤ noise) (t0 : Int)
    (rest done : List PowerRow) (s : SSState) (h : RunInv m threshold noise t0 done s)
    (h0 : ∀ r ∈ rest, t0 ≤ r.1)
    (hlen : ∀ r ∈ rest, r.2.length = m)
    (hr : (done ++ rest).Pairwise (fun a b => a.1 < b.1)) :
    RunInv m threshold noise t0 (done ++ rest) (rest.foldl (ssStep threshold noise) s) := by
  induction rest generalizing done s with
  | nil => simpa using h
  | cons r rest ih =>
    have h2 : done ++ r :: rest = (done ++ [r]) ++ rest := by simp
    rw [List.foldl_cons, h2]
    have hd : ∀ d ∈ done, d.1 < r.1 := fun d hd => (List.pairwise_append.1 hr).2.2 d hd r List.mem_cons_self
    rw [h2] at hr
    refine ih _ _ (ssStep_run m hm threshold noise hn t0 done s r h (h0 r List.mem_cons_self) hd
      (hlen r List.mem_cons_self))
      (fun r' hr' => h0 r' (List.mem_cons_of_mem _ hr'))
      (fun r' hr' => hlen r' (List.mem_cons_of_mem _ hr')) hr

theorem ssFinal_run (m : Nat) (hm : m < 3) (threshold noise : Rat) (hn : 0 ≤ noise) (first : PowerRow)
    (rest : List PowerRow) (hlen : ∀ r ∈ first :: rest, r.2.length = m)
    (hr : (first :: rest).Pairwise (fun a b => a.1 < b.1)) :
    List.Forall₂ (EdgeOk (SteadyRun m threshold (first :: rest)) m)
      (ssFinal m threshold noise (first :: rest) first).steady
      (ssFinal m threshold noise (first :: rest) first).transitions ∧
    ((ssFinal m threshold noise (first :: rest) first).steady.map (fun e => e.1)).Pairwise (fun a b => a < b) := by
  have h0 : RunInv m threshold noise first.1 [] (ssInit m first.1) :=
    ⟨fun _ => ⟨rfl, rfl, rfl, rfl, rfl, rfl⟩, fun hc => absurd rfl hc, Or.inl rfl, List.Forall₂.nil,
      List.Pairwise.nil, (fun e he => by cases he)⟩
  have h := ssFold_run m hm threshold noise hn first.1 (first :: rest) [] _ h0 ?_ hlen hr
  · rw [List.nil_append] at h
    unfold ssFinal
    generalize (first :: rest).foldl (ssStep threshold noise) (ssInit m first.1) = s at h ⊢
    have hmono : List.Forall₂ (EdgeOk (SteadyRun m threshold (first :: rest)) m) s.steady s.transitions := by
      refine h.edges.imp ?_
      rintro st tr ⟨e1, ⟨a, e2, e3⟩, l, e4, e5⟩
      refine ⟨e1, ⟨a, e2, e3.run⟩, l, e4, ?_⟩
      rcases e5 with e5 | ⟨a', e5, e6⟩
      · exact Or.inl e5
      · exact Or.inr ⟨a', e5, e6.run⟩
    unfold recordEdge
    by_cases he : exceeds noise (vsub s.est s.last) = true
    · rw [if_pos he]
      constructor
      · obtain ⟨pre, x, xs, hdone, _, ht, hch, hpre, hmean, _⟩ := h.open_ (by simp)
        refine List.rel_append hmono (List.Forall₂.cons ⟨rfl, ⟨x.1, ht, ?_⟩, s.last, rfl, ?_⟩ List.Forall₂.nil)
        · exact ⟨pre, x, xs, [], by rw [hdone]; simp, rfl, hch, hpre, by simp, hmean⟩
        · rcases h.last with hl | ⟨a', ha', hl⟩
          · exact Or.inl hl
          · exact Or.inr ⟨a', ha', hl.run⟩
      · simp only [List.map_append, List.map_cons, List.map_nil]
        rw [List.pairwise_append]
        refine ⟨h.strict, by simp, ?_⟩
        intro a ha b hb
        obtain ⟨e, he', rfl⟩ := List.mem_map.1 ha
        rw [List.mem_singleton.1 hb]
        exact h.lt e he'
    · rw [if_neg he]
      exact ⟨hmono, h.strict⟩
  · intro r hr'
    rcases List.mem_cons.1 hr' with h' | h'
    · rw [h']
    · exact le_of_lt ((List.pairwise_cons.1 hr).1 r h')

/-- With a non-negative noise level and a strictly increasing index, the reported times are distinct and increasing; every
reported steady state is the mean of a maximal run of readings without a jump, beginning at or after the reported time;
and the transition is its difference to the mean of an earlier such run, or to zero at the start. -/
theorem C48_meaning (m : Nat) (threshold noise : Rat) (hn : 0 ≤ noise) (rows : List PowerRow)
    (st tr : List (Int × List Rat)) (hlen : ∀ r ∈ rows, r.2.length = m)
    (hr : rows.Pairwise (fun a b => a.1 < b.1)) (h : findSteadyStates m threshold noise rows = .ok (st, tr)) :
    (tr.map Prod.fst).Pairwise (fun a b => a < b) ∧
    List.Forall₂ (fun s t => s.1 = t.1 ∧ (∃ a, s.1 ≤ a ∧ SteadyRun m threshold rows s.2 a) ∧
      ∃ l, t.2 = List.zipWith (fun x y => x - y) s.2 l ∧
        (l = List.replicate m 0 ∨ ∃ a, a < s.1 ∧ SteadyRun m threshold rows l a)) st tr := by
  obtain ⟨first, rest, rfl, hm, k, rfl, rfl, _⟩ := findSteadyStates_ok m threshold noise rows st tr h
  obtain ⟨h1, h2⟩ := ssFinal_run m hm threshold noise hn first rest hlen hr
  have hboth := List.forall₂_drop k h1
  refine ⟨?_, hboth⟩
  rw [← fst_eq_of_forall₂ (hboth.imp (fun _ _ h' => h'.1)), List.map_drop]
  exact h2.sublist (List.drop_sublist _ _)

/-- The first reported steady state is never one that begins with the data and lies above the noise level. -/
theorem C48_first_edge (m : Nat) (threshold noise : Rat) (hn : 0 ≤ noise) (rows : List PowerRow)
    (st tr : List (Int × List Rat)) (hlen : ∀ r ∈ rows, r.2.length = m)
    (hr : rows.Pairwise (fun a b => a.1 < b.1)) (h : findSteadyStates m threshold noise rows = .ok (st, tr))
    (s : Int × List Rat) (hs : s ∈ st) (r : PowerRow) (hrow : rows.head? = some r) (ht : s.1 = r.1) :
    ∀ x ∈ s.2, x ≤ noise := by
  obtain ⟨first, rest, rfl, hm, k, rfl, rfl, hk, hk0, hne⟩ := findSteadyStates_ok m threshold noise rows st tr h
  obtain ⟨h1, h2⟩ := ssFinal_run m hm threshold noise hn first rest hlen hr
  have hmem := (ssFinal_edge m threshold noise first rest (hr.imp (fun h' => le_of_lt h'))).mem
  generalize ssFinal m threshold noise (first :: rest) first = f at *
  simp only [List.head?_cons, Option.some.injEq] at hrow
  rw [← hrow] at ht
  by_contra hcon
  push Not at hcon
  obtain ⟨y, hy, hgt⟩ := hcon
  -- everything in the list is later than the first entry
  generalize f.steady = fs at *
  generalize f.transitions = ft at *
  cases fs with
  | nil => exact hne rfl
  | cons a l =>
    rw [List.map_cons, List.pairwise_cons] at h2
    have hge : first.1 ≤ a.1 := by
      rcases hmem a List.mem_cons_self with h' | h'
      · omega
      · obtain ⟨q, hq, hqa⟩ := List.mem_map.1 h'
        rw [← hqa]
        rcases List.mem_cons.1 hq with hq' | hq'
        · rw [hq']
        · exact le_of_lt ((List.pairwise_cons.1 hr).1 q hq')
    have hlater : s ∈ l → False := by
      intro hsl
      have hlt := h2.1 s.1 (List.mem_map_of_mem hsl)
      omega
    cases k with
    | zero =>
      rw [List.drop_zero] at hs
      rcases List.mem_cons.1 hs with hsa | hsl
      · refine hk0 rfl a rfl ?_ ?_
        · cases h1 with
          | cons hab _ => rw [List.head?_cons, Option.map_some, hab.1]
        · rw [← hsa]; exact ⟨⟨y, hy, hgt⟩, ht⟩
      · exact hlater hsl
    | succ k =>
      rw [List.drop_succ_cons] at hs
      exact hlater (List.mem_of_mem_drop hs)

/-! ### Nothing to report -/

theorem est_between (lo hi : Rat) (n : Nat) (e x : Rat) (he : lo ≤ e ∧ e ≤ hi) (hx : lo ≤ x ∧ x ≤ hi) :
    lo ≤ ((n : Rat) * e + x) / ((n : Rat) + 1) ∧ ((n : Rat) * e + x) / ((n : Rat) + 1) ≤ hi := by
  have hn : (0 : Rat) ≤ n := by positivity
  have hpos : (0 : Rat) < (n : Rat) + 1 := by positivity
  constructor
  · rw [le_div_iff₀ hpos]; nlinarith
  · rw [div_le_iff₀ hpos]; nlinarith

theorem mem_zipWith {f : Rat → Rat → Rat} {a b : List Rat} {z : Rat} (h : z ∈ List.zipWith f a b) :
    ∃ x ∈ a, ∃ y ∈ b, z = f x y := by
  induction a generalizing b with
  | nil => cases h
  | cons x a ih =>
    cases b with
    | nil => cases h
    | cons y b =>
      rw [List.zipWith_cons_cons] at h
      rcases List.mem_cons.1 h with h' | h'
      · exact ⟨x, List.mem_cons_self, y, List.mem_cons_self, h'⟩
      · obtain ⟨x', hx, y', hy, hz⟩ := ih h'
        exact ⟨x', List.mem_cons_of_mem _ hx, y', List.mem_cons_of_mem _ hy, hz⟩

structure FlatInv (lo hi : Rat) (s : SSState) : Prop where
  est : ∀ x ∈ s.est, lo ≤ x ∧ x ≤ hi
  last : ∀ x ∈ s.last, lo ≤ x ∧ x ≤ hi
  none : s.steady = [] ∧ s.transitions = []

theorem FlatInv.record {lo hi noise : Rat} {s : SSState} (h : FlatInv lo hi s) (hd : hi - lo ≤ noise) :
    recordEdge noise s = s := by
  unfold recordEdge
  rw [if_neg]
  rw [exceeds_iff]
  rintro ⟨z, hz, hgt⟩
  obtain ⟨x, hx, y, hy, rfl⟩ := mem_zipWith hz
  have h1 := h.est x hx
  have h2 := h.last y hy
  have : |x - y| ≤ noise := abs_le.2 ⟨by linarith, by linarith⟩
  linarith

theorem ssStep_flat (threshold noise lo hi : Rat) (s : SSState) (r : PowerRow) (h : FlatInv lo hi s)
    (hd : hi - lo ≤ noise) (hr : ∀ x ∈ r.2, lo ≤ x ∧ x ≤ hi) : FlatInv lo hi (ssStep threshold noise s r) := by
  have hest : ∀ n : Nat, ∀ z ∈ List.zipWith (fun e x => ((n : Rat) * e + x) / ((n : Rat) + 1)) s.est (r.2.take 2),
      lo ≤ z ∧ z ≤ hi := by
    intro n z hz
    obtain ⟨x, hx, y, hy, rfl⟩ := mem_zipWith hz
    exact est_between lo hi n x y (h.est x hx) (hr y (List.mem_of_mem_take hy))
  unfold ssStep
  simp only [h.record hd]
  by_cases hc : (exceeds threshold (vsub (r.2.take 2) s.prev) && !s.ongoing) = true
  · rw [if_pos hc]
    exact ⟨hest _, h.est, h.none⟩
  · rw [if_neg hc]
    exact ⟨hest _, h.last, h.none⟩

theorem ssFold_flat (threshold noise lo hi : Rat) (rows : List PowerRow) (s : SSState) (h : FlatInv lo hi s)
    (hd : hi - lo ≤ noise) (hr : ∀ r ∈ rows, ∀ x ∈ r.2, lo ≤ x ∧ x ≤ hi) :
    FlatInv lo hi (rows.foldl (ssStep threshold noise) s) := by
  induction rows generalizing s with
  | nil => exact h
  | cons r rows ih =>
    rw [List.foldl_cons]
    exact ih _ (ssStep_flat threshold noise lo hi s r h hd (hr r List.mem_cons_self))
      (fun r' h' => hr r' (List.mem_cons_of_mem _ h'))

/-- When the signal never leaves a band around zero that is not wider than the noise level, there is nothing to report;
instead of the two empty frames the code tries to return in that case, `IndexError` is raised. -/
theorem C48_no_event_raises (m : Nat) (hm : m < 3) (threshold noise lo hi : Rat) (rows : List PowerRow)
    (hlo : lo ≤ 0) (hhi : 0 ≤ hi) (hd : hi - lo ≤ noise) (hr : ∀ r ∈ rows, ∀ x ∈ r.2, lo ≤ x ∧ x ≤ hi) :
    findSteadyStates m threshold noise rows = .error .indexError := by
  cases rows with
  | nil => rfl
  | cons first rest =>
    have h0 : FlatInv lo hi (ssInit m first.1) := by
      refine ⟨?_, ?_, rfl, rfl⟩ <;>
      · intro x hx
        rw [(List.mem_replicate.1 hx).2]; exact ⟨hlo, hhi⟩
    have h := ssFold_flat threshold noise lo hi (first :: rest) _ h0 hd hr
    unfold findSteadyStates
    simp only []
    rw [if_neg (by omega), h.record hd, h.none.1]

/-- A constant signal above the noise level has nothing to report either, and there the two empty frames are returned. -/
theorem C48_constant (threshold noise x : Rat) (hn : 0 ≤ noise) (ht : 0 ≤ threshold) (hx : noise < x) (first : Int)
    (times : List Int) :
    findSteadyStates 1 threshold noise ((first :: times).map (fun t => (t, [x]))) = .ok ([], []) := by
  have hxpos : 0 < x := lt_of_le_of_lt hn hx
  -- after the first row the estimate is `x` and stays so
  have hstep : ∀ (l : List Int) (s : SSState), s.est = [x] → s.prev = [x] →
      (l.map (fun t => (t, [x]))).foldl (ssStep threshold noise) s =
        { s with n := s.n + l.length, ongoing := if l = [] then s.ongoing else false } := by
    intro l
    induction l with
    | nil => intro s _ _; simp
    | cons t l ih =>
      intro s he hp
      rw [List.map_cons, List.foldl_cons]
      have hne : exceeds threshold (vsub [x] [x]) = false := by
        unfold exceeds vsub
        simp [ht]
      have h1 : ssStep threshold noise s (t, [x]) = { s with n := s.n + 1, ongoing := false } := by
        unfold ssStep
        have hpos : ((s.n : Rat) + 1) ≠ 0 := by positivity
        simp only [List.take_succ_cons, List.take_nil, hp, hne, Bool.false_and, Bool.false_eq_true, if_false, he,
          List.zipWith_cons_cons, List.zipWith_nil_left]
        have : ((s.n : Rat) * x + x) / ((s.n : Rat) + 1) = x := by
          rw [div_eq_iff hpos]; ring
        rw [this]
      rw [h1, ih { s with n := s.n + 1, ongoing := false } he hp]
      simp only [ite_self, reduceCtorEq, if_false, List.length_cons]
      rw [show s.n + 1 + l.length = s.n + (l.length + 1) by omega]
  rw [List.map_cons]
  unfold findSteadyStates
  simp only [List.foldl_cons]
  rw [if_neg (by decide)]
  have hrec0 : recordEdge noise (ssInit 1 first) = ssInit 1 first := by
    unfold recordEdge
    rw [show vsub (ssInit 1 first).est (ssInit 1 first).last = vsub (List.replicate 1 0) (List.replicate 1 0) from rfl,
      exceeds_zero noise hn]
    rfl
  obtain ⟨n1, o1, h1⟩ : ∃ n o, ssStep threshold noise (ssInit 1 first) (first, [x])
      = ⟨[x], [0], [x], o, [], [], n, first⟩ := by
    refine ⟨1, exceeds threshold (vsub [x] [0]), ?_⟩
    unfold ssStep
    simp only [hrec0]
    cases hc : exceeds threshold (vsub [x] [0]) with
    | true => simp [ssInit, hc]
    | false => simp [ssInit, hc]
  rw [h1, hstep times _ rfl rfl]
  have hex : exceeds noise (vsub [x] [0]) = true := by
    unfold exceeds vsub
    simp only [List.zipWith_cons_cons, List.zipWith_nil_left, List.any_cons, List.any_nil, Bool.or_false, sub_zero,
      decide_eq_true_eq]
    rw [abs_of_pos hxpos]; exact hx
  unfold recordEdge
  simp only [hex, if_true, List.nil_append]
  rw [if_pos]
  · rfl
  · refine ⟨?_, trivial, trivial⟩
    simp [hx]

/-- An on/off cycle on a base load: two transitions. -/
example : findSteadyStates 1 15 70 [(0, [100]), (1, [104]), (2, [300]), (3, [302]), (4, [304]), (5, [90]), (6, [94])]
    = .ok ([(2, [302]), (5, [92])], [(2, [200]), (5, [-210])]) := by decide +kernel
example : findSteadyStates 2 15 70 [(0, [10, 0]), (1, [14, 0]), (2, [10, 90]), (3, [10, 90])]
    = .ok ([(2, [10, 90])], [(2, [-2, 90])]) := by decide +kernel
example : findSteadyStates 1 15 70 [(0, [10]), (1, [60])] = .error .indexError := by decide +kernel

end Nilmtk
