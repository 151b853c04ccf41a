import Verif.Lemmas.GoodSectionsCombine
import Verif.Spec.GoodSections
import Verif.Props.Results
import Verif.Props.HDF
/-!
C22, C23, C24: good sections.
-/
namespace Nilmtk
open TF

/-! ### Runs -/

theorem pairs_run_end (msp : Int) (next : Bool) (x a : Int) (l : List Int) (b : Int) (m : List Int)
    (hg : GapFree msp (x :: l)) (hl : (x :: l).getLast? = some a) (hb : b - a > msp) :
    pairs msp true next (x :: l ++ b :: m) = (none, some a) :: pairs msp false next (b :: m) ∧
    pairs msp false next (x :: l ++ b :: m) =
      (if l = [] then [] else [(some x, some a)]) ++ pairs msp false next (b :: m) := by
  induction l generalizing x with
  | nil =>
    simp only [List.getLast?_singleton, Option.some.injEq] at hl
    subst hl
    have : ¬ b - x ≤ msp := by omega
    simp [pairs, this]
  | cons y l ih =>
    rw [List.getLast?_cons_cons] at hl
    obtain ⟨i1, i2⟩ := ih y hg.2 hl
    rw [List.cons_append] at i1
    have h := hg.1
    simp only [List.cons_append, pairs, h, if_true, Bool.false_eq_true, if_false]
    rw [i1]
    simp [setHead]

theorem pairs_run_last (msp : Int) (next : Bool) (x a : Int) (l : List Int)
    (hg : GapFree msp (x :: l)) (hl : (x :: l).getLast? = some a) :
    pairs msp true next (x :: l) = [(none, if next then none else some a)] ∧
    pairs msp false next (x :: l) =
      if l = [] ∧ next = false then [] else [(some x, if next then none else some a)] := by
  induction l generalizing x with
  | nil =>
    simp only [List.getLast?_singleton, Option.some.injEq] at hl
    subst hl
    cases next <;> simp [pairs]
  | cons y l ih =>
    rw [List.getLast?_cons_cons] at hl
    obtain ⟨i1, i2⟩ := ih y hg.2 hl
    have h := hg.1
    simp only [pairs, h, if_true, Bool.false_eq_true, if_false]
    rw [i1]
    simp [setHead]

theorem maximalRuns_nil {msp : Int} {idx : List Int} (h : MaximalRuns msp idx []) : idx = [] := by
  cases h; rfl

theorem pairs_runs (msp : Int) (prev next : Bool) (idx : List Int) (runs : List (List Int))
    (h : MaximalRuns msp idx runs) :
    (pairs msp prev next idx).map toTF = runSections prev next runs := by
  induction h generalizing prev with
  | nil => rfl
  | single r hne hg =>
    cases r with
    | nil => exact absurd rfl hne
    | cons x l =>
      obtain ⟨a, ha⟩ : ∃ a, (x :: l).getLast? = some a := ⟨_, List.getLast?_eq_some_getLast (by simp)⟩
      obtain ⟨h1, h2⟩ := pairs_run_last msp next x a l hg ha
      simp only [runSections, runSection, List.head?_cons, ha]
      cases prev
      · rw [h2]
        cases l <;> cases next <;> simp [toTF]
      · rw [h1]
        cases next <;> simp [toTF]
  | cons r a b idx runs hg ha hb hr ih =>
    cases r with
    | nil => simp at ha
    | cons x l =>
      obtain ⟨h1, h2⟩ := pairs_run_end msp next x a l b idx hg ha hb
      have hrs : runs ≠ [] := by
        intro h; subst h; exact absurd (maximalRuns_nil hr) (by simp)
      obtain ⟨q, qs, rfl⟩ : ∃ q qs, runs = q :: qs := by
        cases runs with
        | nil => exact absurd rfl hrs
        | cons q qs => exact ⟨q, qs, rfl⟩
      simp only [runSections, runSection, List.head?_cons, ha]
      rw [← ih]
      cases prev
      · rw [h2]
        cases l <;> simp [toTF]
      · rw [h1]
        simp [toTF]

/-- Every list of readings has maximal runs. -/
theorem maximalRuns_exist (msp : Int) (idx : List Int) : ∃ runs, MaximalRuns msp idx runs := by
  induction idx with
  | nil => exact ⟨[], .nil⟩
  | cons x l ih =>
    obtain ⟨runs, h⟩ := ih
    cases h with
    | nil => exact ⟨[[x]], .single _ (by simp) trivial⟩
    | single r hne hg =>
      cases l with
      | nil => exact absurd rfl hne
      | cons y l =>
        by_cases hc : y - x ≤ msp
        · exact ⟨[x :: y :: l], .single _ (by simp) ⟨hc, hg⟩⟩
        · exact ⟨[[x], y :: l], .cons [x] x y l [y :: l] trivial rfl (by omega) (.single _ (by simp) hg)⟩
    | cons r a b idx runs hg ha hb hr =>
      cases r with
      | nil => simp at ha
      | cons y l =>
        by_cases hc : y - x ≤ msp
        · refine ⟨(x :: y :: l) :: runs, .cons (x :: y :: l) a b idx runs ⟨hc, hg⟩ ?_ hb hr⟩
          rw [List.getLast?_cons_cons]; exact ha
        · exact ⟨[x] :: (y :: l) :: runs, .cons [x] x y (l ++ b :: idx) _ trivial rfl (by omega)
            (.cons (y :: l) a b idx runs hg ha hb hr)⟩

/-! ### C22 -/

/-- The readings without NaN, in time order. -/
theorem completeIndex_spec {α : Type} (rows : List (Row (Option α))) (idx : List Int)
    (hp : idx.Perm ((rows.filter (fun r => r.2.isSome)).map Prod.fst)) (hs : idx.Pairwise (· < ·)) :
    completeIndex rows = idx := by
  unfold completeIndex
  have h1 := List.perm_insertionSort (· ≤ ·) ((rows.filter (fun r => r.2.isSome)).map Prod.fst)
  exact (h1.trans hp.symm).eq_of_pairwise
    (fun a b _ _ h1 h2 => le_antisymm h1 h2) (List.pairwise_insertionSort _ _) (hs.imp le_of_lt)

/-- C22. For one chunk without look-ahead, the good sections are exactly: one closed section for each
maximal run of at least two readings whose successive gaps are at most `max_sample_period`, from the first to
the last reading of the run. Rows with NaN do not count as readings; rows may be stored in any order. -/
theorem C22_good_sections_are_runs {α : Type} (msp : Int) (rows : List (Row (Option α))) (idx : List Int)
    (hp : idx.Perm ((rows.filter (fun r => r.2.isSome)).map Prod.fst)) (hs : idx.Pairwise (· < ·))
    (runs : List (List Int)) (hr : MaximalRuns msp idx runs) :
    getGoodSections msp rows none false =
      .ok ((runs.filter (fun r => decide (2 ≤ r.length))).map (fun r => mk' r.head? r.getLast?)) := by
  have hidx := completeIndex_spec rows idx hp hs
  have key : ∀ runs : List (List Int), runSections false false runs =
      (runs.filter (fun r => decide (2 ≤ r.length))).map (fun r => mk' r.head? r.getLast?) := by
    intro runs
    induction runs with
    | nil => rfl
    | cons r rs ih =>
      have e : runSections false false (r :: rs) = runSection false false r ++ runSections false false rs := by
        cases rs <;> simp [runSections]
      rw [e, ih, runSection, List.filter_cons]
      by_cases h : 2 ≤ r.length <;> simp [h]
  rw [← key, ← pairs_runs msp false false idx runs hr]
  match idx, hidx, hs with
  | [], hidx, _ => simp [getGoodSections, hidx, pairs]
  | [x], hidx, _ => simp [getGoodSections, hidx, pairs]
  | x :: y :: l, hidx, hs =>
    obtain ⟨a, ha⟩ : ∃ a, (x :: y :: l).getLast? = some a := ⟨_, List.getLast?_eq_some_getLast (by simp)⟩
    exact getGoodSections_eq msp rows none false x (y :: l) a none hidx hs (by simp) ha rfl

/-- C22, general chunk of a longer series with at least two readings: `prev` tells that the previous chunk
ended inside a section, `after` is the first complete look-ahead row. The first section then starts with
`None` exactly when `prev`, the last one ends with `None` exactly when the next reading follows within
`max_sample_period`. -/
theorem C22_open_ended_sections {α : Type} (msp : Int) (rows look : List (Row (Option α))) (prev : Bool)
    (idx : List Int) (hp : idx.Perm ((rows.filter (fun r => r.2.isSome)).map Prod.fst))
    (hs : idx.Pairwise (· < ·)) (h2 : 2 ≤ idx.length) (last : Int) (hl : idx.getLast? = some last)
    (after : Row (Option α)) (hlook : (look.filter (fun r => r.2.isSome)).head? = some after)
    (runs : List (List Int)) (hr : MaximalRuns msp idx runs) :
    getGoodSections msp rows (some look) prev =
      .ok (runSections prev (decide (after.1 - last ≤ msp)) runs) := by
  have hidx := completeIndex_spec rows idx hp hs
  have hgap : lookAheadGap (some look) last = .ok (some (after.1 - last)) := by
    cases look with
    | nil => simp at hlook
    | cons r rs => simp only [lookAheadGap, hlook]
  rw [← pairs_runs msp prev _ idx runs hr]
  match idx, hidx, hs, h2, hl with
  | x :: y :: l, hidx, hs, _, hl =>
    exact getGoodSections_eq msp rows (some look) prev x (y :: l) last (some (after.1 - last)) hidx hs
      (by simp) hl hgap

/-- C22: sections are proper, in order and disjoint. -/
theorem C22_sections_disjoint {α : Type} (msp : Int) (rows : List (Row (Option α))) (fs : List TF)
    (hnd : ((rows.filter (fun r => r.2.isSome)).map Prod.fst).Nodup)
    (h : getGoodSections msp rows none false = .ok fs) : SortedDisjoint fs := by
  have hperm := (List.perm_insertionSort (· ≤ ·) ((rows.filter (fun r => r.2.isSome)).map Prod.fst))
  have hs : (completeIndex rows).Pairwise (· < ·) := by
    have h1 : (completeIndex rows).Pairwise (· ≤ ·) := List.pairwise_insertionSort _ _
    have h2 : (completeIndex rows).Nodup := hperm.nodup_iff.2 hnd
    have h3 := h1.and h2
    exact h3.imp (fun ⟨a, b⟩ => lt_of_le_of_ne a b)
  obtain ⟨runs, hr⟩ := maximalRuns_exist msp (completeIndex rows)
  have h1 := C22_good_sections_are_runs msp rows _ hperm hs runs hr
  rw [h1] at h
  cases h
  have h3 : (runs.filter (fun r => decide (2 ≤ r.length))).map (fun r => mk' r.head? r.getLast?) =
      (pairs msp false false (completeIndex rows)).map toTF := by
    have h4 : getGoodSections msp rows none false =
        .ok ((pairs msp false false (completeIndex rows)).map toTF) := by
      generalize hidx : completeIndex rows = idx at hs
      match idx, hidx, hs with
      | [], hidx, _ => simp [getGoodSections, hidx, pairs]
      | [x], hidx, _ => simp [getGoodSections, hidx, pairs]
      | x :: y :: l, hidx, hs =>
        obtain ⟨a, ha⟩ : ∃ a, (x :: y :: l).getLast? = some a := ⟨_, List.getLast?_eq_some_getLast (by simp)⟩
        exact getGoodSections_eq msp rows none false x (y :: l) a none hidx hs (by simp) ha rfl
    rw [h1] at h4
    injection h4
  rw [h3]
  have h5 : ∀ (b : Int) (ps : List (Option Int × Option Int)), PairsOK b ps →
      (∀ p, ps.head? = some p → p.1 ≠ none) → (∀ p, ps.getLast? = some p → p.2 ≠ none) →
      (∀ p ∈ ps.tail, p.1 ≠ none) →
      SortedDisjoint (ps.map toTF) := by
    intro b ps hps
    induction hps with
    | nil => intros; exact .nil
    | closed b s e l h1 h2 h3 ih =>
      intro _ hl ht
      cases l with
      | nil => exact .single _ s e ⟨rfl, rfl, rfl, rfl⟩ h2
      | cons q l =>
        have hq := ht q (by simp)
        obtain ⟨s', hs'⟩ := Option.ne_none_iff_exists'.1 hq
        have := ih (by intro p hp; simp at hp; subst hp; exact hq)
          (by intro p hp; exact hl p (by rw [List.getLast?_cons_cons]; exact hp))
          (by intro p hp; exact ht p (by simp at hp ⊢; exact Or.inr hp))
        refine .cons _ _ _ s e s' ⟨rfl, rfl, rfl, rfl⟩ h2 hs' ?_ this
        cases h3 with
        | closed _ _ _ _ h _ _ => cases hs'; show e ≤ _; omega
        | contd => cases hs'
        | opened _ _ h => cases hs'; show e ≤ _; omega
        | through => cases hs'
    | contd b e l h1 h2 ih =>
      intro hh _ _; exact absurd rfl (hh _ rfl)
    | opened b s h1 => intro _ hl _; exact absurd rfl (hl _ rfl)
    | through => intro hh _ _; exact absurd rfl (hh _ rfl)
  generalize completeIndex rows = idx at hs
  cases idx with
  | nil => exact .nil
  | cons x l =>
    refine h5 x _ (pairs_ok msp false false x l hs) ?_ ?_ ?_
    · intro p hp
      cases hq : pairs msp false false (x :: l) with
      | nil => rw [hq] at hp; simp at hp
      | cons q qs =>
        rw [hq] at hp; simp at hp; subst hp
        have := pairs_head msp false false x l q qs hq
        simpa using this
    · intro p hp
      have := pairs_last msp false false x l p hp
      simpa using this
    · intro p hp
      exact pairs_tail_start msp false x l p hp

/-! ### C23 -/

theorem append_at_end {α : Type} (rows : List (RRow α)) (hok : RowsOK rows) (tf : TF) (s e : Int)
    (ht : HalfOpen tf s e) (hse : s < e) (hb : ∀ r ∈ rows, r.stop ≤ s) (v : α) :
    Results.append rows tf v = .ok (rows ++ [⟨s, e, v⟩]) ∧ RowsOK (rows ++ [⟨s, e, v⟩]) := by
  obtain ⟨hne, _, hs, he⟩ := ht
  have hok' : RowsOK (rows ++ [⟨s, e, v⟩]) := by
    refine ⟨?_, ?_⟩
    · intro r hr
      rcases List.mem_append.1 hr with hr | hr
      · exact hok.1 r hr
      · rw [List.mem_singleton] at hr; subst hr; exact hse
    · rw [List.pairwise_append]
      refine ⟨hok.2, by simp, ?_⟩
      intro a ha b hb'
      rw [List.mem_singleton] at hb'; subst hb'
      exact hb a ha
  refine ⟨?_, hok'⟩
  rcases checkRows_spec tf s e hs he hne hse rows hok.1 with ⟨h1, _⟩ | ⟨_, r, hr, hn⟩
  · have hany : rows.any (fun r => decide (r.start = s)) = false := by
      rw [List.any_eq_false]
      intro r hr
      have := hb r hr
      have := hok.1 r hr
      simp only [decide_eq_true_eq]; omega
    rw [Results.append, h1]
    simp only [hs, he, hany]
    rw [if_neg (by simp), rowsOK_sorted_id hok']
  · exact absurd (Or.inl (hb r hr)) hn

/-- In an increasing table the rows after a given row are determined. -/
theorem rest_unique {α : Type} {table pre pre' post post' : List (Row α)} {r : Row α} (hinc : Increasing table)
    (h1 : table = pre ++ r :: post) (h2 : table = pre' ++ r :: post') : post = post' := by
  induction pre generalizing table pre' with
  | nil =>
    cases pre' with
    | nil => rw [h1] at h2; simpa using h2
    | cons a pre' =>
      exfalso
      rw [h1] at h2 hinc
      simp only [List.nil_append, List.cons_append, List.cons.injEq] at h2
      obtain ⟨rfl, h2⟩ := h2
      simp only [List.nil_append] at hinc
      have := (List.pairwise_cons.1 hinc).1 r (by rw [h2]; simp)
      omega
  | cons b pre ih =>
    cases pre' with
    | nil =>
      exfalso
      rw [h2] at h1 hinc
      simp only [List.nil_append, List.cons_append, List.cons.injEq] at h1
      obtain ⟨rfl, h1⟩ := h1
      simp only [List.nil_append] at hinc
      have := (List.pairwise_cons.1 hinc).1 r (by rw [h1]; simp)
      omega
    | cons a pre' =>
      rw [h1] at hinc h2
      simp only [List.cons_append, List.cons.injEq] at h2
      exact ih (table := pre ++ r :: post) (List.pairwise_cons.1 hinc).2 rfl h2.2

theorem near_iff_of_post {α : Type} {table pre post : List (Row α)} {r : Row α} (hinc : Increasing table)
    (h : table = pre ++ r :: post) (msp : Int) :
    near msp (post.head?.map (fun q => q.1 - r.1)) = true ↔ ∃ q ∈ table, r.1 < q.1 ∧ q.1 - r.1 ≤ msp := by
  subst h
  have h1 := List.pairwise_append.1 hinc
  have h2 := List.pairwise_cons.1 h1.2.1
  constructor
  · intro hn
    cases post with
    | nil => simp [near] at hn
    | cons q post =>
      simp only [List.head?_cons, Option.map_some, near, decide_eq_true_eq] at hn
      exact ⟨q, by simp, h2.1 q List.mem_cons_self, hn⟩
  · rintro ⟨q, hq, hlt, hle⟩
    rcases List.mem_append.1 hq with hq | hq
    · have := h1.2.2 q hq r List.mem_cons_self; omega
    · rcases List.mem_cons.1 hq with rfl | hq
      · omega
      · cases post with
        | nil => simp at hq
        | cons p post =>
          simp only [List.head?_cons, Option.map_some, near, decide_eq_true_eq]
          rcases List.mem_cons.1 hq with rfl | hq
          · exact hle
          · have := (List.pairwise_cons.1 h2.2).1 q hq; omega

/-- The look-ahead gap seen by a chunk of a NaN-free increasing table. -/
theorem lookAheadGap_chunk {α : Type} {table pre post : List (Row (Option α))} {n : Nat} (hn : 0 < n)
    (hc : ∀ r ∈ table, r.2.isSome = true) (h : table = pre ++ post) (last : Int) :
    lookAheadGap (some (post.take n)) last = .ok (post.head?.map (fun q => q.1 - last)) := by
  cases post with
  | nil => simp [lookAheadGap]
  | cons q post =>
    have hq : q.2.isSome = true := hc q (by rw [h]; simp)
    obtain ⟨m, rfl⟩ : ∃ m, n = m + 1 := ⟨n - 1, by omega⟩
    simp [lookAheadGap, hq]

theorem increasing_infix {α : Type} {table pre rows post : List (Row α)} (hinc : Increasing table)
    (h : table = pre ++ rows ++ post) : Increasing rows := by
  subst h
  exact (List.pairwise_append.1 (List.pairwise_append.1 hinc).1).2.1

theorem processChunk_eq {α : Type} (msp : Int) (table : List (Row (Option α))) (hinc : Increasing table)
    (hc : ∀ r ∈ table, r.2.isSome = true) (n : Nat) (hn : 0 < n) (c : Chunk (Option α))
    (h2 : 2 ≤ c.rows.length) (hl : LooksAhead table n c) (prev : Bool) (lo mid : Int)
    (ht : HalfOpen c.timeframe lo mid) (hlm : lo < mid) (acc : List (RRow (List TF))) (hok : RowsOK acc)
    (hb : ∀ r ∈ acc, r.stop ≤ lo) (r : Row (Option α)) (hr : c.rows.getLast? = some r)
    (nx : Bool) (hnx : nx = true ↔ ∃ q ∈ table, r.1 < q.1 ∧ q.1 - r.1 ≤ msp) :
    processChunk msp ⟨prev, acc⟩ c =
      .ok ⟨nx, acc ++ rowOf lo mid (pairs msp prev nx (c.rows.map Prod.fst))⟩ ∧
    RowsOK (acc ++ rowOf lo mid (pairs msp prev nx (c.rows.map Prod.fst))) ∧
    (∀ q ∈ acc ++ rowOf lo mid (pairs msp prev nx (c.rows.map Prod.fst)), q.stop ≤ mid) := by
  obtain ⟨pre, post, htab, hlook⟩ := hl
  have hrows := increasing_infix hinc htab
  have hrc : ∀ r ∈ c.rows, r.2.isSome = true := fun r hr => hc r (by rw [htab]; simp [hr])
  have hidx := completeIndex_eq c.rows hrows hrc
  obtain ⟨A, hA⟩ := List.getLast?_eq_some_iff.1 hr
  have htab' : table = (pre ++ A) ++ r :: post := by rw [htab, hA]; simp
  have hgap := lookAheadGap_chunk (pre := pre ++ c.rows) hn hc htab r.1
  have hnear : near msp (post.head?.map (fun q => q.1 - r.1)) = nx := by
    rw [Bool.eq_iff_iff, hnx]; exact near_iff_of_post hinc htab' msp
  obtain ⟨a, b, l, hrows'⟩ : ∃ a b l, c.rows = a :: b :: l := by
    match hx : c.rows, h2 with
    | a :: b :: l, _ => exact ⟨a, b, l, rfl⟩
  have hsorted : (a.1 :: b.1 :: l.map Prod.fst).Pairwise (· < ·) := by
    have : (c.rows.map Prod.fst).Pairwise (· < ·) := List.pairwise_map.2 hrows
    rw [hrows'] at this; exact this
  have hm : c.rows.map Prod.fst = a.1 :: b.1 :: l.map Prod.fst := by rw [hrows']; rfl
  have hgs : getGoodSections msp c.rows c.look prev =
      .ok ((pairs msp prev nx (c.rows.map Prod.fst)).map toTF) := by
    rw [hm, ← hnear]
    apply getGoodSections_eq msp c.rows c.look prev a.1 (b.1 :: l.map Prod.fst) r.1 _ (by rw [hidx, hm]) hsorted
      (by simp) _ (by rw [hlook]; exact hgap)
    rw [← hm, List.getLast?_map, hr]; rfl
  rw [hm] at hgs ⊢
  by_cases hps : pairs msp prev nx (a.1 :: b.1 :: l.map Prod.fst) = []
  · have hprev : prev = false := by
      cases prev with
      | false => rfl
      | true =>
        obtain ⟨e, r, h⟩ := pairs_true_ne_nil msp nx a.1 (b.1 :: l.map Prod.fst)
        rw [h] at hps; cases hps
    have hnxf : nx = false := by
      cases nx with
      | false => rfl
      | true => exact absurd hps (pairs_next_ne_nil msp prev a.1 (b.1 :: l.map Prod.fst))
    rw [hps] at hgs ⊢
    have hro : rowOf lo mid [] = [] := rfl
    rw [hro, List.append_nil]
    refine ⟨?_, hok, fun q hq => by have := hb q hq; omega⟩
    unfold processChunk
    rw [hgs, hprev, hnxf]
    rfl
  · have hro : rowOf lo mid (pairs msp prev nx (a.1 :: b.1 :: l.map Prod.fst)) =
        [⟨lo, mid, (pairs msp prev nx (a.1 :: b.1 :: l.map Prod.fst)).map toTF⟩] := by
      rw [rowOf, if_neg hps]
    rw [hro]
    obtain ⟨h3, h4⟩ := append_at_end acc hok c.timeframe lo mid ht hlm hb
      ((pairs msp prev nx (a.1 :: b.1 :: l.map Prod.fst)).map toTF)
    refine ⟨?_, h4, ?_⟩
    · have hlast := pairs_last msp prev nx a.1 (b.1 :: l.map Prod.fst)
      have hflag : ((((pairs msp prev nx (a.1 :: b.1 :: l.map Prod.fst)).map toTF).getLast?.bind
          TF.stop).isNone) = nx := by
        obtain ⟨p, hp⟩ : ∃ p, (pairs msp prev nx (a.1 :: b.1 :: l.map Prod.fst)).getLast? = some p :=
          ⟨_, List.getLast?_eq_some_getLast hps⟩
        have := hlast p hp
        rw [List.getLast?_map, hp]
        simp only [Option.map_some, Option.bind_some, toTF_stop]
        rw [Bool.eq_iff_iff, this]
        cases p.2 <;> simp
      unfold processChunk
      simp only [hgs]
      generalize hP : (pairs msp prev nx (a.1 :: b.1 :: l.map Prod.fst)).map toTF = Q at h3 hflag
      cases Q with
      | nil => rw [List.map_eq_nil_iff] at hP; exact absurd hP hps
      | cons f fs => simp only [h3, hflag]
    · intro q hq
      rcases List.mem_append.1 hq with hq | hq
      · have := hb q hq; omega
      · rw [List.mem_singleton] at hq; subst hq; exact le_refl _

/-- Processing the chunks of one section. -/
theorem processChunks_seg {α : Type} (msp : Int) (table : List (Row (Option α))) (hinc : Increasing table)
    (hc : ∀ r ∈ table, r.2.isSome = true) (n : Nat) (hn : 0 < n) (cs : List (Chunk (Option α)))
    (hne : cs ≠ []) (h2 : ∀ c ∈ cs, 2 ≤ c.rows.length) (hsh : Consecutive SharesRow cs)
    (hl : ∀ c ∈ cs, LooksAhead table n c) (prev : Bool) (lo hi : Int)
    (ht : Tiles lo hi (cs.map Chunk.timeframe)) (acc : List (RRow (List TF))) (hok : RowsOK acc)
    (hb : ∀ r ∈ acc, r.stop ≤ lo)
    (hprev : prev = true → ∀ a b l, (joinOverlapping (cs.map Chunk.rows)) = a :: b :: l → b.1 - a.1 ≤ msp)
    (r : Row (Option α)) (hr : (joinOverlapping (cs.map Chunk.rows)).getLast? = some r)
    (next : Bool) (hnx : next = true ↔ ∃ q ∈ table, r.1 < q.1 ∧ q.1 - r.1 ≤ msp) :
    ∃ rows, processChunks msp ⟨prev, acc⟩ cs = .ok ⟨next, acc ++ rows⟩ ∧
      Seg msp prev lo ((joinOverlapping (cs.map Chunk.rows)).map Prod.fst) next hi rows := by
  induction cs generalizing prev lo acc with
  | nil => exact absurd rfl hne
  | cons c cs ih =>
    cases ht with
    | cons _ mid _ _ _ htf hlm hts =>
    obtain ⟨a, b, l, hrows⟩ : ∃ a b l, c.rows = a :: b :: l := by
      match hx : c.rows, h2 c List.mem_cons_self with
      | a :: b :: l, _ => exact ⟨a, b, l, rfl⟩
    cases cs with
    | nil =>
      cases hts
      have hj : joinOverlapping ([c].map Chunk.rows) = c.rows := by simp [joinOverlapping]
      rw [hj] at hr hprev ⊢
      obtain ⟨h3, h4, h5⟩ := processChunk_eq msp table hinc hc n hn c (h2 c List.mem_cons_self)
        (hl c List.mem_cons_self) prev lo hi htf hlm acc hok hb r hr next hnx
      refine ⟨rowOf lo hi (pairs msp prev next (c.rows.map Prod.fst)), ?_, ?_⟩
      · rw [processChunks, h3]; simp only [processChunks]
      · rw [hrows]
        exact Seg.last prev next lo hi a.1 b.1 (l.map Prod.fst) (fun h => hprev h a b l hrows)
    | cons d ds =>
      cases hsh with
      | cons _ _ _ hshare hsh' =>
      obtain ⟨y, hy1, hy2⟩ := hshare
      obtain ⟨z, B, hd⟩ : ∃ z B, d.rows = y :: z :: B := by
        match hx : d.rows, h2 d (by simp) with
        | a :: b :: l, _ =>
          rw [hx] at hy2; simp at hy2; subst hy2
          exact ⟨b, l, rfl⟩
      -- the look-ahead of c starts with z
      have hnx1 : decide (z.1 - y.1 ≤ msp) = true ↔ ∃ q ∈ table, y.1 < q.1 ∧ q.1 - y.1 ≤ msp := by
        obtain ⟨pre, post, htab, _⟩ := hl d (by simp)
        rw [hd] at htab
        have htab' : table = pre ++ y :: (z :: B ++ post) := by rw [htab]; simp
        rw [← near_iff_of_post hinc htab' msp]
        simp [near]
      obtain ⟨h3, h4, h5⟩ := processChunk_eq msp table hinc hc n hn c (h2 c List.mem_cons_self)
        (hl c List.mem_cons_self) prev lo mid htf hlm acc hok hb y hy1 (decide (z.1 - y.1 ≤ msp)) hnx1
      have hj : joinOverlapping ((c :: d :: ds).map Chunk.rows) =
          c.rows ++ (joinOverlapping ((d :: ds).map Chunk.rows)).tail := by
        simp [joinOverlapping, hd]
      have hj2 : joinOverlapping ((d :: ds).map Chunk.rows) =
          y :: z :: (B ++ ((ds.map Chunk.rows).map List.tail).flatten) := by
        simp [joinOverlapping, hd]
      have hr' : (joinOverlapping ((d :: ds).map Chunk.rows)).getLast? = some r := by
        rw [hj, hj2, List.tail_cons, List.getLast?_append] at hr
        rw [hj2, List.getLast?_cons_cons]
        cases hg : (z :: (B ++ ((ds.map Chunk.rows).map List.tail).flatten)).getLast? with
        | none => simp at hg
        | some q => rw [hg] at hr; simpa using hr
      obtain ⟨rows, h6, h7⟩ := ih (by simp) (fun c hc => h2 c (List.mem_cons_of_mem _ hc)) hsh'
        (fun c hc => hl c (List.mem_cons_of_mem _ hc)) (decide (z.1 - y.1 ≤ msp)) mid hts _ h4 h5
        (by
          intro h a b l hab
          rw [hj2] at hab
          simp only [List.cons.injEq] at hab
          obtain ⟨rfl, rfl, _⟩ := hab
          simpa using h) hr'
      refine ⟨rowOf lo mid (pairs msp prev (decide (z.1 - y.1 ≤ msp)) (c.rows.map Prod.fst)) ++ rows, ?_, ?_⟩
      · rw [processChunks, h3]; simp only [h6, List.append_assoc]
      · rw [hj, hj2, hrows]
        rw [hj2] at h7
        have hy1' : (a.1 :: b.1 :: l.map Prod.fst).getLast? = some y.1 := by
          have : c.rows.map Prod.fst = a.1 :: b.1 :: l.map Prod.fst := by rw [hrows]; rfl
          rw [← this, List.getLast?_map, hy1]; rfl
        have := Seg.cons prev next lo mid hi a.1 b.1 y.1 z.1 (l.map Prod.fst)
          ((B ++ ((ds.map Chunk.rows).map List.tail).flatten).map Prod.fst) rows
          (fun h => hprev h a b _ (by rw [hj, hrows]; rfl)) hy1' h7
        simpa using this

theorem runs_last (msp : Int) (idx : List Int) (runs : List (List Int)) (h : MaximalRuns msp idx runs) (last : Int)
    (hl : idx.getLast? = some last) (hs : idx.Pairwise (· < ·)) :
    ∃ r x, runs.getLast? = some r ∧ r.head? = some x ∧ x ≤ last ∧ (r = [last] ↔ last ≤ x) ∧
      (runSections false true runs).getLast? = some (mk' (some x) none) := by
  induction h with
  | nil => simp at hl
  | single r hne hg =>
    cases r with
    | nil => exact absurd rfl hne
    | cons x l =>
      refine ⟨x :: l, x, rfl, rfl, ?_, ?_, by simp [runSections, runSection]⟩
      · cases l with
        | nil => simp at hl; omega
        | cons y l =>
          rw [List.getLast?_cons_cons] at hl
          exact le_of_lt ((List.pairwise_cons.1 hs).1 last (List.mem_of_getLast? hl))
      · cases l with
        | nil => simp at hl; subst hl; simp
        | cons y l =>
          rw [List.getLast?_cons_cons] at hl
          have := (List.pairwise_cons.1 hs).1 last (List.mem_of_getLast? hl)
          simp; omega
  | cons r a b idx runs hg ha hb hr ih =>
    obtain ⟨q, qs, rfl⟩ : ∃ q qs, runs = q :: qs := by
      cases runs with
      | nil => exact absurd (maximalRuns_nil hr) (by simp)
      | cons q qs => exact ⟨q, qs, rfl⟩
    obtain ⟨r', x, i1, i2, i3, i4, i5⟩ := ih (by
      rw [List.getLast?_append] at hl
      cases hx : (b :: idx).getLast? with
      | none => simp at hx
      | some z => rw [hx] at hl; simpa using hl) (List.pairwise_append.1 hs).2.1
    refine ⟨r', x, by rw [List.getLast?_cons_cons]; exact i1, i2, i3, i4, ?_⟩
    simp only [runSections]
    rw [List.getLast?_append, i5]; rfl

/-- C23. Good sections of one section of a NaN-free meter, computed chunk by chunk with look-ahead and the
carried flag and then combined: whatever the chunk size, they are the maximal gap-free runs of the readings in
the section; a run that continues after the section is cut at the section's end. It is a `ValueError` if that leaves
nothing of it: the section ends at its last reading, after a long gap, and the next reading follows within
`max_sample_period`. Hypotheses: the load does not raise, the section holds at least two readings. -/
theorem C23_window_end_partial {α : Type} (msp : Int) (hmsp : 0 ≤ msp) (table : List (Row (Option α)))
    (hinc : Increasing table) (hcomplete : ∀ r ∈ table, r.2.isSome = true) (window sec : TF) (nLook cs : Int)
    (hn : 0 < nLook) (hcs : 0 < cs) (p : Int → Bool)
    (hp : ∀ t, p t = true ↔ Mem t (window.intersection sec))
    (h2 : 2 ≤ (table.filter (fun r => p r.1)).length)
    (hload : (loadSection (some table) window nLook cs sec).1.err = none)
    (last : Row (Option α)) (hlast : (table.filter (fun r => p r.1)).getLast? = some last)
    (goesOn : Bool) (hgo : goesOn = true ↔ ∃ q ∈ table, last.1 < q.1 ∧ q.1 - last.1 ≤ msp)
    (runs : List (List Int))
    (hruns : MaximalRuns msp ((table.filter (fun r => p r.1)).map Prod.fst) runs) :
    goodSections msp (loadSection (some table) window nLook cs sec).1 =
      if goesOn = true ∧ (window.intersection sec).stop = some last.1 ∧ runs.getLast? = some [last.1] then .error .valueError
      else .ok (periodSections goesOn ((window.intersection sec).stop.getD last.1) runs) := by
  obtain ⟨hne, hsz, hshare⟩ := C13_chunk_sizes_and_overlap table hinc window sec nLook cs hcs p hp h2
  have hlook := (C15_look_ahead table hinc window sec nLook cs hcs p hp h2).1 hn
  have hjoin := C12_section_rows_partial table hinc window sec nLook cs hcs p hp (by omega)
  obtain ⟨first, hfirst⟩ : ∃ f, (table.filter (fun r => p r.1)).head? = some f := by
    cases hx : table.filter (fun r => p r.1) with
    | nil => rw [hx] at h2; simp at h2
    | cons f _ => exact ⟨f, rfl⟩
  have htiles := C14_timeframes_tile table hinc window sec nLook cs hcs p hp first last h2 hfirst hlast
  have hsorted : ((table.filter (fun r => p r.1)).map Prod.fst).Pairwise (· < ·) := by
    rw [List.pairwise_map]; exact List.Pairwise.filter _ hinc
  have hlast' : ((table.filter (fun r => p r.1)).map Prod.fst).getLast? = some last.1 := by
    rw [List.getLast?_map, hlast]; rfl
  obtain ⟨rows, h3, h4⟩ := processChunks_seg msp table hinc hcomplete nLook.toNat (by omega)
    (loadSection (some table) window nLook cs sec).1.out hne (fun c hc => (hsz c hc).1) hshare hlook false _ _
    htiles [] ⟨by simp, by simp⟩ (by simp) (by simp) last (by rw [hjoin]; exact hlast) goesOn hgo
  rw [hjoin] at h4
  have hml : Mem last.1 (window.intersection sec) := by
    have := List.mem_of_getLast? hlast
    rw [List.mem_filter] at this
    exact (hp _).1 this.2
  have hbounded : goesOn = true → ∃ e, (window.intersection sec).stop = some e ∧ last.1 ≤ e := by
    intro h
    cases he : (window.intersection sec).stop with
    | some e =>
      refine ⟨e, rfl, ?_⟩
      rcases hml.2.2 e he with h | h
      · exact le_of_lt h
      · exact le_of_eq h.2
    | none =>
      exfalso
      -- an unbounded section contains every later reading
      obtain ⟨q, hq, hlt, _⟩ := hgo.1 h
      have hmq : p q.1 = true := by
        rw [hp]
        unfold Mem at hml ⊢
        rw [he] at hml ⊢
        refine ⟨hml.1, ?_, by simp⟩
        intro s hs
        have := hml.2.1 s hs
        omega
      have hqf : q ∈ table.filter (fun r => p r.1) := List.mem_filter.2 ⟨hq, hmq⟩
      obtain ⟨A, hA⟩ := List.getLast?_eq_some_iff.1 hlast
      have hs' : Increasing (table.filter (fun r => p r.1)) := List.Pairwise.filter _ hinc
      rw [hA] at hs' hqf
      rcases List.mem_append.1 hqf with hm | hm
      · have := (List.pairwise_append.1 hs').2.2 q hm last (by simp); omega
      · rw [List.mem_singleton] at hm; subst hm; omega
  obtain ⟨r, x, r1, r2, r3, r4, r5⟩ := runs_last msp _ runs hruns last.1 hlast' hsorted
  have hpl : goesOn = true → ∀ q, (pairs msp false goesOn ((table.filter (fun r => p r.1)).map Prod.fst)).getLast? = some q →
      q.1 = some x := by
    intro hg q hq
    subst hg
    have := congrArg (Option.map toTF) hq
    rw [← List.getLast?_map, pairs_runs msp false true _ runs hruns, r5] at this
    simp only [Option.map_some, Option.some.injEq] at this
    have := congrArg TF.start this
    rw [toTF_start] at this
    exact this.symm
  unfold goodSections
  rw [h3]
  simp only [hload, List.nil_append]
  by_cases hbad : goesOn = true ∧ (window.intersection sec).stop = some last.1 ∧ runs.getLast? = some [last.1]
  · rw [if_pos hbad]
    obtain ⟨b1, b2, b3⟩ := hbad
    rw [r1] at b3
    have hx : last.1 ≤ x := r4.1 (Option.some.inj b3)
    subst b1
    obtain ⟨q, hq⟩ : ∃ q, (pairs msp false true ((table.filter (fun r => p r.1)).map Prod.fst)).getLast? = some q := by
      cases hq : (pairs msp false true ((table.filter (fun r => p r.1)).map Prod.fst)).getLast? with
      | some q => exact ⟨q, rfl⟩
      | none =>
        exfalso
        have := congrArg (Option.map toTF) hq
        rw [← List.getLast?_map, pairs_runs msp false true _ runs hruns, r5] at this
        cases this
    rw [combined_seg_error msp hmsp h4 hsorted last.1 hlast' q x hq (hpl rfl q hq) (by rw [b2]; exact hx)]
  · rw [if_neg hbad]
    obtain ⟨rows', h5⟩ := combined_seg msp hmsp h4 hsorted last.1 hlast' (by
      intro hg q s hq hs
      obtain ⟨e, e1, e2⟩ := hbounded hg
      have hxs := hpl hg q hq
      rw [hs] at hxs
      simp only [Option.some.injEq] at hxs
      subst hxs
      rw [e1]
      simp only [Option.getD_some]
      by_contra hc
      have hel : e = last.1 := by omega
      subst hel
      exact hbad ⟨hg, e1, by rw [r1, r4.2 (by omega)]⟩)
    rw [pairs_runs msp false goesOn _ runs hruns] at h5
    rw [h5]
    rfl

/-- C23. As above, if the section's end is not itself a reading that continues a run (half-open sections satisfy this). -/
theorem C23_chunking_irrelevant_partial {α : Type} (msp : Int) (hmsp : 0 ≤ msp) (table : List (Row (Option α)))
    (hinc : Increasing table) (hcomplete : ∀ r ∈ table, r.2.isSome = true) (window sec : TF) (nLook cs : Int)
    (hn : 0 < nLook) (hcs : 0 < cs) (p : Int → Bool)
    (hp : ∀ t, p t = true ↔ Mem t (window.intersection sec))
    (h2 : 2 ≤ (table.filter (fun r => p r.1)).length)
    (hload : (loadSection (some table) window nLook cs sec).1.err = none)
    (last : Row (Option α)) (hlast : (table.filter (fun r => p r.1)).getLast? = some last)
    (goesOn : Bool) (hgo : goesOn = true ↔ ∃ q ∈ table, last.1 < q.1 ∧ q.1 - last.1 ≤ msp)
    (hend : goesOn = true → ∀ e, (window.intersection sec).stop = some e → last.1 < e)
    (runs : List (List Int))
    (hruns : MaximalRuns msp ((table.filter (fun r => p r.1)).map Prod.fst) runs) :
    goodSections msp (loadSection (some table) window nLook cs sec).1 =
      .ok (periodSections goesOn ((window.intersection sec).stop.getD last.1) runs) := by
  rw [C23_window_end_partial msp hmsp table hinc hcomplete window sec nLook cs hn hcs p hp h2 hload last hlast goesOn hgo
    runs hruns, if_neg]
  rintro ⟨h3, h4, _⟩
  have := hend h3 _ h4
  omega

/-- C23: two chunk sizes give the same sections, or the same exception. -/
theorem C23_chunk_size_independent_partial {α : Type} (msp : Int) (hmsp : 0 ≤ msp)
    (table : List (Row (Option α)))
    (hinc : Increasing table) (hcomplete : ∀ r ∈ table, r.2.isSome = true) (window sec : TF) (nLook cs cs' : Int)
    (hn : 0 < nLook) (hcs : 0 < cs) (hcs' : 0 < cs') (p : Int → Bool)
    (hp : ∀ t, p t = true ↔ Mem t (window.intersection sec))
    (h2 : 2 ≤ (table.filter (fun r => p r.1)).length)
    (hload : (loadSection (some table) window nLook cs sec).1.err = none)
    (hload' : (loadSection (some table) window nLook cs' sec).1.err = none) :
    goodSections msp (loadSection (some table) window nLook cs sec).1 =
      goodSections msp (loadSection (some table) window nLook cs' sec).1 := by
  obtain ⟨last, hlast⟩ : ∃ r, (table.filter (fun r => p r.1)).getLast? = some r := by
    cases hx : (table.filter (fun r => p r.1)).getLast? with
    | none => rw [List.getLast?_eq_none_iff] at hx; rw [hx] at h2; simp at h2
    | some r => exact ⟨r, rfl⟩
  obtain ⟨runs, hruns⟩ := maximalRuns_exist msp ((table.filter (fun r => p r.1)).map Prod.fst)
  classical
  have hgo : decide (∃ q ∈ table, last.1 < q.1 ∧ q.1 - last.1 ≤ msp) = true ↔
      ∃ q ∈ table, last.1 < q.1 ∧ q.1 - last.1 ≤ msp := by simp
  rw [C23_window_end_partial msp hmsp table hinc hcomplete window sec nLook cs hn hcs p hp h2 hload
      last hlast _ hgo runs hruns,
    C23_window_end_partial msp hmsp table hinc hcomplete window sec nLook cs' hn hcs' p hp h2 hload'
      last hlast _ hgo runs hruns]

/-- A NaN-free table with a hole between 30 and 80. -/
def gsTable : List (Row (Option Nat)) :=
  [(0, some 1), (10, some 2), (20, some 3), (30, some 4), (80, some 5), (90, some 6), (100, some 7), (110, some 8)]

example : goodSections 10 (loadSection (some gsTable) TF.blank 10 2 (mk' (some 0) (some 105))).1 =
    .ok [mk' (some 0) (some 30), { mk' (some 80) (some 105) with includeEnd := true }] := by decide +kernel

example : goodSections 10 (loadSection (some gsTable) TF.blank 10 2 (mk' (some 0) (some 105))).1 =
    .ok (periodSections true 105 [[0, 10, 20, 30], [80, 90, 100]]) := by
  have hm : ∀ t, (decide (0 ≤ t) && decide (t < 105)) = true ↔
      Mem t (TF.blank.intersection (mk' (some 0) (some 105))) := by
    intro t
    simp [Mem, TF.intersection, TF.blank, mk', interStart, interEnd, built, TF.start, TF.stop, interInclude]
  exact C23_chunking_irrelevant_partial 10 (by decide) gsTable (by unfold Increasing gsTable; decide) (by decide)
    TF.blank (mk' (some 0) (some 105)) 10 2 (by decide) (by decide)
    (fun t => decide (0 ≤ t) && decide (t < 105)) hm (by decide) (by decide +kernel) (100, some 7) (by decide) true
    (by decide) (by intro _ e he; cases he; decide) [[0, 10, 20, 30], [80, 90, 100]]
    (.cons [0, 10, 20, 30] 30 80 [90, 100] [[80, 90, 100]] (by simp [GapFree]) rfl (by decide)
      (.single _ (by simp) (by simp [GapFree])))

example : getGoodSections 10 [(30, some 1), (0, some 1), (10, some 2), (15, (none : Option Nat)), (80, some 1),
    (40, some 2), (50, some 0)] none false =
    .ok [mk' (some 0) (some 10), mk' (some 30) (some 50)] :=
  C22_good_sections_are_runs 10 _ [0, 10, 30, 40, 50, 80] (by decide) (by decide)
    [[0, 10], [30, 40, 50], [80]]
    (.cons [0, 10] 10 30 [40, 50, 80] _ (by simp [GapFree]) rfl (by decide)
      (.cons [30, 40, 50] 50 80 [] _ (by simp [GapFree]) rfl (by decide) (.single _ (by simp) (by simp [GapFree]))))

/-- C23 is false when rows hold NaN: a chunk with a single complete reading is skipped, and the section around
it is cut in two; loaded in one chunk the same data is one section. -/
theorem C23_nan_counterexample :
    let table : List (Row (Option Nat)) := [(0, some 1), (10, some 2), (20, none), (30, some 4), (40, none),
      (50, some 5), (60, some 6)]
    let sec := mk' (some 0) (some 65)
    goodSections 20 (loadSection (some table) TF.blank 10 100 sec).1 =
      .ok [{ mk' (some 0) (some 60) with includeEnd := true }] ∧
    goodSections 20 (loadSection (some table) TF.blank 10 2 sec).1 =
      .ok [mk' (some 0) (some 20), { mk' (some 40) (some 60) with includeEnd := true }] := by
  decide +kernel

/-- C23 is false when every look-ahead row holds NaN: the call raises `IndexError`, depending on the
chunk size. -/
theorem C23_look_ahead_nan_counterexample :
    let table : List (Row (Option Nat)) := [(0, some 1), (10, some 2), (20, none), (30, some 4), (40, some 5)]
    let sec := mk' (some 0) (some 45)
    goodSections 20 (loadSection (some table) TF.blank 1 1 sec).1 = .error .indexError ∧
    goodSections 20 (loadSection (some table) TF.blank 1 100 sec).1 =
      .ok [{ mk' (some 0) (some 40) with includeEnd := true }] := by decide +kernel

/-- C23 is false for several sections: the flag "previous chunk ended with an open-ended good section" is
carried from one section into the next, so the second section is reported good from the section's
start (100) although its first reading is at 150. -/
theorem C23_sections_counterexample :
    let table : List (Row (Option Nat)) := [(0, some 1), (10, some 2), (20, some 3), (150, some 4), (160, some 5),
      (300, some 5)]
    goodSections 20 (hdfLoad (some table) TF.blank (some [mk' (some 0) (some 15), mk' (some 100) (some 200)]) 10 100).1 =
      .ok [mk' (some 0) (some 15), { mk' (some 100) (some 160) with includeEnd := true }] ∧
    goodSections 20 (hdfLoad (some table) TF.blank (some [mk' (some 100) (some 200)]) 10 100).1 =
      .ok [{ mk' (some 150) (some 160) with includeEnd := true }] := by decide +kernel

/-! ### C24 -/

/-- Nothing to merge or to close: no row but the last has an open end, no row has an open start. -/
def AllClosed : List (RRow (List TF)) → Prop
  | [] => True
  | [r] => ∃ f fs, r.val = f :: fs ∧ f.start ≠ none
  | r :: rs => (∃ f fs, r.val = f :: fs ∧ f.start ≠ none) ∧
      (∃ g, r.val.getLast? = some g ∧ g.stop ≠ none) ∧ AllClosed rs

theorem mergeRow_closed (msp : Int) (acc : List (RRow (List TF))) (e : Int) (row : RRow (List TF))
    (hl : ∀ f, lastSection acc = some f → f.stop ≠ none) (f : TF) (fs : List TF) (hv : row.val = f :: fs)
    (hf : f.start ≠ none) : mergeRow msp acc e row = .ok (acc, row) := by
  obtain ⟨s, hs⟩ := Option.ne_none_iff_exists'.1 hf
  have hfo : (if (decide (e - msp ≤ row.start) && decide (row.start ≤ e)) = true then
      (Except.ok false : Except Err Bool) else .ok false) = .ok false := by split <;> rfl
  unfold mergeRow
  simp only [hv, hs, Option.isNone_some, hfo, Bool.false_eq_true, if_false]
  cases hla : lastSection acc with
  | none => rfl
  | some g =>
    obtain ⟨t, ht⟩ := Option.ne_none_iff_exists'.1 (hl g hla)
    simp only [ht, Option.isNone_some, Bool.false_eq_true, if_false]

theorem combineLoop_closed (msp : Int) (rows acc : List (RRow (List TF))) (pe : Option Int)
    (h : AllClosed rows) (hl : ∀ f, lastSection acc = some f → f.stop ≠ none) :
    combineLoop msp acc pe rows = .ok (acc ++ rows, (rows.getLast?.map RRow.stop).or pe) := by
  induction rows generalizing acc pe with
  | nil => simp [combineLoop]
  | cons r rs ih =>
    have hstep : combineLoop msp acc pe (r :: rs) = combineLoop msp (acc ++ [r]) (some r.stop) rs := by
      cases pe with
      | none => rw [combineLoop]
      | some e =>
        have hx : ∃ f fs, r.val = f :: fs ∧ f.start ≠ none := by
          cases rs with
          | nil => exact h
          | cons _ _ => exact h.1
        obtain ⟨f, fs, hv, hf⟩ := hx
        rw [combineLoop, mergeRow_closed msp acc e r hl f fs hv hf]
    rw [hstep]
    cases rs with
    | nil => simp [combineLoop]
    | cons q qs =>
      obtain ⟨_, ⟨g, hg, hgs⟩, hrest⟩ := h
      rw [ih (acc ++ [r]) (some r.stop) hrest]
      · simp only [List.append_assoc, List.singleton_append, List.getLast?_cons_cons]
        cases hz : (q :: qs).getLast? with
        | none => simp at hz
        | some z => simp
      · intro f hf
        have : lastSection (acc ++ [r]) = some g := by
          show (flat (acc ++ [r])).getLast? = some g
          rw [flat_append, List.getLast?_append]
          have : flat [r] = r.val := by simp [flat]
          rw [this, hg]; simp
        rw [this] at hf; cases hf; exact hgs

theorem allClosed_putLast (rows : List (RRow (List TF))) (h : AllClosed rows) (f : TF)
    (hs : ∀ g, lastSection rows = some g → f.start = g.start) : AllClosed (putLast rows f) := by
  induction rows with
  | nil => trivial
  | cons r rs ih =>
    cases rs with
    | nil =>
      obtain ⟨g, gs, hv, hg⟩ := h
      have hl : lastSection [r] = (g :: gs).getLast? := by simp [lastSection, hv]
      simp only [putLast, List.map_nil, List.flatten_nil, if_true, setLast, hv]
      cases gs with
      | nil =>
        refine ⟨f, [], rfl, ?_⟩
        rw [hs g (by rw [hl]; rfl)]; exact hg
      | cons b bs => exact ⟨g, (b :: bs).dropLast ++ [f], rfl, hg⟩
    | cons q qs =>
      obtain ⟨h1, h2, h3⟩ := h
      have hne : ¬ ((q :: qs).map RRow.val).flatten = [] := by
        have : ∃ f fs, q.val = f :: fs := by
          cases qs with
          | nil => obtain ⟨f, fs, h, _⟩ := h3; exact ⟨f, fs, h⟩
          | cons _ _ => obtain ⟨⟨f, fs, h, _⟩, _⟩ := h3; exact ⟨f, fs, h⟩
        obtain ⟨a, as, ha⟩ := this
        simp [ha]
      rw [putLast, if_neg hne]
      have ih' := ih h3 (by
        intro g hg
        apply hs
        have e1 : (flat (q :: qs)).getLast? = some g := hg
        show (flat (r :: q :: qs)).getLast? = some g
        have : flat (r :: q :: qs) = r.val ++ flat (q :: qs) := by simp [flat]
        rw [this, List.getLast?_append, e1]; rfl)
      have : ∃ x xs, putLast (q :: qs) f = x :: xs := by
        rw [putLast]; split <;> exact ⟨_, _, rfl⟩
      obtain ⟨x, xs, hx⟩ := this
      rw [hx] at ih' ⊢
      exact ⟨h1, h2, ih'⟩

/-- C24, partial: `combined()` called twice gives the same sections and leaves the same rows, provided no
stored section is open towards a neighbouring row. Missing: results of a chunked load (see the
counterexample). -/
theorem C24_combined_twice_partial (msp : Int) (rows rows' : List (RRow (List TF))) (fs : List TF)
    (h : AllClosed rows) (hen : ∀ r ∈ rows, ∀ f ∈ r.val, f.enabled = true) (hc : combined msp rows = .ok (fs, rows')) :
    combined msp rows' = .ok (fs, rows') := by
  have hloop := combineLoop_closed msp rows [] none h (by intro f hf; simp [lastSection] at hf)
  unfold combined at hc
  rw [hloop] at hc
  simp only [List.nil_append] at hc
  have key : ∀ (last f : TF), lastSection rows = some last → f.start = last.start → f.includeEnd = true →
      f.stop ≠ none →
      (((putLast rows f).map RRow.val).flatten, putLast rows f) = (fs, rows') →
      combined msp rows' = .ok (fs, rows') := by
    intro last f hl h1 h2 h3 h4
    have hne : flat rows ≠ [] := by
      intro h0
      have : (flat rows).getLast? = some last := hl
      rw [h0] at this; cases this
    have hflat := flat_putLast rows f hne
    have hclosed := allClosed_putLast rows h f (by
      intro g hg; rw [hl] at hg; cases hg; exact h1)
    have hloop' := combineLoop_closed msp (putLast rows f) [] none hclosed
      (by intro f hf; simp [lastSection] at hf)
    obtain ⟨rfl, rfl⟩ := Prod.mk.injEq .. ▸ h4
    have hl' : lastSection (putLast rows f) = some f := by
      show (flat (putLast rows f)).getLast? = some f
      rw [hflat]; simp
    have hput : putLast (putLast rows f) f = putLast rows f := by
      clear hloop' hl' hflat hclosed hloop hc h4 hen
      induction rows with
      | nil => rfl
      | cons r rs ih =>
        by_cases hr : (rs.map RRow.val).flatten = []
        · simp only [putLast, if_pos hr, setLast, List.dropLast_concat]
        · have h6 : flat (putLast rs f) ≠ [] := by
            rw [flat_putLast rs f hr]; simp
          have h6' : ¬ ((putLast rs f).map RRow.val).flatten = [] := h6
          have hrest : AllClosed rs := by
            cases rs with
            | nil => trivial
            | cons _ _ => exact h.2.2
          have hlr : lastSection rs = some last := by
            have e1 : flat (r :: rs) = r.val ++ flat rs := by simp [flat]
            have e2 : (flat (r :: rs)).getLast? = some last := hl
            rw [e1, List.getLast?_append] at e2
            show (flat rs).getLast? = some last
            cases hz : (flat rs).getLast? with
            | none =>
              rw [List.getLast?_eq_none_iff] at hz
              exact absurd hz hr
            | some z => rw [hz] at e2; simpa using e2
          have := ih hrest hlr (by exact hr)
          simp only [putLast, if_neg hr, if_neg h6', this]
    obtain ⟨e, he⟩ := Option.ne_none_iff_exists'.1 h3
    unfold combined
    rw [hloop']
    simp only [List.nil_append, hl']
    have hf' : { f with includeEnd := true } = f := by rw [← h2]
    simp only [hf', he, hput]
  cases hl : lastSection rows with
  | none =>
    rw [hl] at hc
    simp only [Except.ok.injEq, Prod.mk.injEq] at hc
    obtain ⟨rfl, rfl⟩ := hc
    unfold combined
    rw [hloop]
    simp only [List.nil_append, hl]
  | some last =>
    rw [hl] at hc
    have hmem : last ∈ (rows.map RRow.val).flatten := List.mem_of_getLast? hl
    obtain ⟨v, hv, hlv⟩ := List.mem_flatten.1 hmem
    obtain ⟨r, hr, rfl⟩ := List.mem_map.1 hv
    have henl := hen r hr last hlv
    obtain ⟨z, hz⟩ : ∃ z, rows.getLast? = some z := by
      cases hx : rows.getLast? with
      | none => rw [List.getLast?_eq_none_iff] at hx; subst hx; simp at hr
      | some z => exact ⟨z, rfl⟩
    have hst : ({ last with includeEnd := true } : TF).stop = last.stop := rfl
    have hstart : ({ last with includeEnd := true } : TF).start = last.start := rfl
    simp only [hst, hz, Option.map_some, Option.some_or] at hc
    cases hls : last.stop with
    | some e =>
      simp only [hls, Except.ok.injEq] at hc
      exact key last { last with includeEnd := true } hl rfl rfl (by rw [hst, hls]; simp) hc
    | none =>
      simp only [hls] at hc
      have hset : ∀ f, ({ last with includeEnd := true } : TF).setEnd (some z.stop) = .ok f →
          f = { last with includeEnd := true, rawEnd := some z.stop } := by
        intro f hf
        unfold TF.setEnd at hf
        rw [hstart] at hf
        cases hs : last.start with
        | none => rw [hs] at hf; simp only [Except.ok.injEq] at hf; exact hf.symm
        | some s =>
          rw [hs] at hf
          simp only at hf
          split at hf
          · cases hf
          · simp only [Except.ok.injEq] at hf; exact hf.symm
      cases hx : ({ last with includeEnd := true } : TF).setEnd (some z.stop) with
      | error x => rw [hx] at hc; cases hc
      | ok f =>
        rw [hx] at hc
        simp only [Except.ok.injEq] at hc
        have := hset f hx
        subst this
        refine key last { last with includeEnd := true, rawEnd := some z.stop } hl rfl rfl ?_ hc
        simp [TF.stop, henl]

/-- The rows stored by a chunked load of readings every 10 without a hole (`max_sample_period` 10). -/
def chunkedRows : List (RRow (List TF)) :=
  match processChunks 10 ⟨false, []⟩ (loadSection (some ([(0, some 1), (10, some 2), (20, some 3), (30, some 4),
    (40, some 5), (50, some 5), (60, some 6)] : List (Row (Option Nat)))) TF.blank 10 2 (mk' (some 0) (some 65))).1.out with
  | .ok st => st.rows
  | .error _ => []

/-- C24 is false: after a load in three chunks the first `combined()` returns the section, the second raises
`IndexError`, because the middle row's only section was popped from the stored list. -/
theorem C24_combined_twice_counterexample :
    ∃ fs rows', combined 10 chunkedRows = .ok (fs, rows') ∧
      fs = [{ mk' (some 0) (some 60) with includeEnd := true }] ∧
      combined 10 rows' = .error .indexError := by
  refine ⟨_, _, (show combined 10 chunkedRows = .ok ([{ mk' (some 0) (some 60) with includeEnd := true }],
    [⟨0, 20, [{ mk' (some 0) (some 60) with includeEnd := true }]⟩, ⟨20, 40, []⟩, ⟨40, 65, []⟩]) by decide +kernel), rfl, ?_⟩
  decide +kernel

example : combined 10 [⟨0, 20, [mk' (some 0) (some 15)]⟩, ⟨30, 50, [mk' (some 30) (some 35), mk' (some 40) none]⟩] =
    .ok ([mk' (some 0) (some 15), mk' (some 30) (some 35), { mk' (some 40) (some 50) with includeEnd := true }],
      [⟨0, 20, [mk' (some 0) (some 15)]⟩, ⟨30, 50, [mk' (some 30) (some 35),
        { mk' (some 40) (some 50) with includeEnd := true }]⟩]) := by decide +kernel

example : combined 10 [⟨0, 20, [mk' (some 0) (some 15)]⟩, ⟨30, 50, [mk' (some 30) (some 35),
        { mk' (some 40) (some 50) with includeEnd := true }]⟩] =
    .ok ([mk' (some 0) (some 15), mk' (some 30) (some 35), { mk' (some 40) (some 50) with includeEnd := true }],
      [⟨0, 20, [mk' (some 0) (some 15)]⟩, ⟨30, 50, [mk' (some 30) (some 35),
        { mk' (some 40) (some 50) with includeEnd := true }]⟩]) :=
  C24_combined_twice_partial 10
    [⟨0, 20, [mk' (some 0) (some 15)]⟩, ⟨30, 50, [mk' (some 30) (some 35), mk' (some 40) none]⟩] _ _
    ⟨⟨_, _, rfl, by simp [mk', TF.start]⟩, ⟨_, rfl, by simp [mk', TF.stop]⟩, _, _, rfl, by simp [mk', TF.start]⟩
    (by simp [mk']) (by decide +kernel)

/-- C23. If the load raises, so does `good_sections`: sections computed from part of the data are never returned. -/
theorem C23_load_error {α : Type} (msp : Int) (load : Gen (Chunk (Option α))) (e : Err) (h : load.err = some e) :
    ∃ e', goodSections msp load = .error e' := by
  unfold goodSections
  cases processChunks msp ⟨false, []⟩ load.out with
  | error e' => exact ⟨e', rfl⟩
  | ok st => simp only [h]; exact ⟨e, rfl⟩

example : ∃ e', goodSections (α := Unit) 5 ⟨[], some .keyError⟩ = .error e' :=
  C23_load_error _ _ .keyError rfl

end Nilmtk
