import Verif.Model.Hart
import Mathlib.Data.List.GetD
import Mathlib.Data.List.Nodup
import Mathlib.Data.List.Pairwise
import Mathlib.Data.List.Basic
import Mathlib.Tactic.ByContra
/-!
C47: the pairs found by Hart's algorithm. C49: the power given to an appliance from its states.
-/
namespace Nilmtk

/-! ### C47 -/

/-- Two readings cancel: their sum is below the fixed tolerance if both are small, and below a fraction of the larger one
otherwise. -/
def Cancels (prm : HartParams) (x y : Rat) : Prop :=
  (|x| < prm.large → |y| < prm.large → |x + y| < prm.minTol) ∧
  (prm.large ≤ |x| ∨ prm.large ≤ |y| → |y| ≤ |x| → |x + y| < prm.percentTol * |x|) ∧
  (prm.large ≤ |x| ∨ prm.large ≤ |y| → |x| ≤ |y| → |x + y| < prm.percentTol * |y|)

/-- A pair as Hart describes it: the earlier transition switches something on and the later one undoes it, in real power
and, if measured, in reactive power. -/
def ValidPair (prm : HartParams) (a b : Transition) : Prop :=
  a.time < b.time ∧ 0 < a.p ∧ Cancels prm a.p b.p ∧ (∀ x y, a.q = some x → b.q = some y → Cancels prm x y)

theorem matchTol_cancels (prm : HartParams) (x y : Rat) : |x + y| < matchTol prm x y ↔ Cancels prm x y := by
  unfold matchTol Cancels
  by_cases h : max |x| |y| < prm.large
  · rw [if_pos h]
    have h1 : |x| < prm.large := lt_of_le_of_lt (le_max_left _ _) h
    have h2 : |y| < prm.large := lt_of_le_of_lt (le_max_right _ _) h
    have h3 : ¬ (prm.large ≤ |x| ∨ prm.large ≤ |y|) := by
      rintro (h' | h')
      · exact absurd h1 (not_lt.2 h')
      · exact absurd h2 (not_lt.2 h')
    constructor
    · intro h'
      exact ⟨fun _ _ => h', fun c => absurd c h3, fun c => absurd c h3⟩
    · intro h'
      exact h'.1 h1 h2
  · rw [if_neg h]
    have h3 : prm.large ≤ |x| ∨ prm.large ≤ |y| := le_max_iff.1 (not_lt.1 h)
    constructor
    · intro h'
      refine ⟨fun h1 h2 => absurd (max_lt h1 h2) h, fun _ hle => ?_, fun _ hle => ?_⟩
      · rw [max_eq_left hle] at h'; exact h'
      · rw [max_eq_right hle] at h'; exact h'
    · rintro ⟨_, ha, hb⟩
      rcases le_total |x| |y| with hle | hle
      · rw [max_eq_right hle]; exact hb h3 hle
      · rw [max_eq_left hle]; exact ha h3 hle

theorem pairCondition_iff (prm : HartParams) (v c : Transition) :
    pairCondition prm v c = true ↔
      (Cancels prm v.p c.p ∧ ∀ x y, v.q = some x → c.q = some y → Cancels prm x y) := by
  unfold pairCondition
  cases hv : v.q with
  | none => simp [matchTol_cancels]
  | some x =>
    cases hc : c.q with
    | none => simp [matchTol_cancels]
    | some y => simp [matchTol_cancels]

/-- The times of all transitions used by the pairs. -/
def usedTimes (pairs : List (Transition × Transition)) : List Int :=
  pairs.flatMap (fun pr => [pr.1.time, pr.2.time])

/-- What holds of the buffer after having seen `seen`. -/
structure PairInv (prm : HartParams) (seen : List Transition) (s : HartBuf) : Prop where
  sub : (s.buf.map (fun e => e.t)).Sublist seen
  valid : ∀ pr ∈ s.pairs, ValidPair prm pr.1 pr.2
  mem : ∀ pr ∈ s.pairs, pr.1 ∈ seen ∧ pr.2 ∈ seen
  nodup : (usedTimes s.pairs).Nodup
  free : ∀ e ∈ s.buf, e.matched = false → e.t.time ∉ usedTimes s.pairs
  marked : ∀ e ∈ s.buf, e.matched = true → e.t.time ∈ usedTimes s.pairs

theorem markAt_t (buf : List Entry) (i : Nat) : (markAt buf i).map (fun e => e.t) = buf.map (fun e => e.t) := by
  apply List.ext_getElem?
  intro k
  unfold markAt
  rw [List.getElem?_map, List.getElem?_map, List.getElem?_modify]
  by_cases h : i = k
  · simp only [if_pos h]; cases buf[k]? <;> rfl
  · simp only [if_neg h]; cases buf[k]? <;> rfl

theorem markAt_getElem? (buf : List Entry) (i k : Nat) (e : Entry) (h : (markAt buf i)[k]? = some e)
    (hm : e.matched = false) : k ≠ i ∧ buf[k]? = some e := by
  unfold markAt at h
  rw [List.getElem?_modify] at h
  by_cases hik : i = k
  · simp only [if_pos hik] at h
    cases hb : buf[k]? with
    | none => rw [hb] at h; cases h
    | some a =>
      rw [hb] at h
      simp only [Option.map_eq_map, Option.map_some, Option.some.injEq] at h
      rw [← h] at hm
      cases hm
  · simp only [if_neg hik] at h
    refine ⟨fun c => hik c.symm, ?_⟩
    cases hb : buf[k]? with
    | none => rw [hb] at h; cases h
    | some a => rw [hb] at h; simpa using h

theorem markAt_marked (buf : List Entry) (i k : Nat) (e : Entry) (h : (markAt buf i)[k]? = some e) :
    (∃ e', buf[k]? = some e' ∧ e'.t = e.t ∧ (e'.matched = e.matched ∨ k = i)) := by
  unfold markAt at h
  rw [List.getElem?_modify] at h
  cases hb : buf[k]? with
  | none => rw [hb] at h; cases h
  | some a =>
    rw [hb] at h
    simp only [Option.map_eq_map, Option.map_some, Option.some.injEq] at h
    refine ⟨a, rfl, ?_⟩
    by_cases hik : i = k
    · rw [if_pos hik] at h
      rw [← h]; exact ⟨rfl, Or.inr hik.symm⟩
    · rw [if_neg hik] at h
      rw [← h]; exact ⟨rfl, Or.inl rfl⟩

/-- Transition times strictly increase, as the index of a data frame of steady-state changes does. -/
def IncTimes (ts : List Transition) : Prop := ts.Pairwise (fun a b => a.time < b.time)

theorem buf_time_lt (seen : List Transition) (hs : IncTimes seen) (buf : List Entry)
    (hsub : (buf.map (fun e => e.t)).Sublist seen) (i j : Nat) (v c : Entry) (hij : i < j)
    (hi : buf[i]? = some v) (hj : buf[j]? = some c) : v.t.time < c.t.time := by
  have h1 : (buf.map (fun e => e.t)).Pairwise (fun a b => a.time < b.time) := hs.sublist hsub
  rw [List.pairwise_map] at h1
  have hi' := List.getElem?_eq_some_iff.1 hi
  have hj' := List.getElem?_eq_some_iff.1 hj
  obtain ⟨hil, hiv⟩ := hi'
  obtain ⟨hjl, hjv⟩ := hj'
  have := List.pairwise_iff_getElem.1 h1 i j hil hjl hij
  rw [hiv, hjv] at this
  exact this

theorem tryPair_inv (prm : HartParams) (seen : List Transition) (hs : IncTimes seen) (s : HartBuf) (i j : Nat)
    (hij : i < j) (h : PairInv prm seen s) : PairInv prm seen (tryPair prm s i j) := by
  unfold tryPair
  cases hi : s.buf[i]? with
  | none => exact h
  | some v =>
    cases hj : s.buf[j]? with
    | none => exact h
    | some c =>
      simp only []
      split
      · rename_i hv
        split
        · rename_i hc
          split
          · rename_i hcond
            have hlt := buf_time_lt seen hs s.buf h.sub i j v c hij hi hj
            have hvm : v ∈ s.buf := List.mem_of_getElem? hi
            have hcm : c ∈ s.buf := List.mem_of_getElem? hj
            have hvs : v.t ∈ seen := h.sub.subset (List.mem_map_of_mem hvm)
            have hcs : c.t ∈ seen := h.sub.subset (List.mem_map_of_mem hcm)
            have hused : usedTimes (s.pairs ++ [(v.t, c.t)]) = usedTimes s.pairs ++ [v.t.time, c.t.time] := by
              unfold usedTimes
              rw [List.flatMap_append]; rfl
            have hpc := (pairCondition_iff prm v.t c.t).1 hcond
            refine ⟨?_, ?_, ?_, ?_, ?_, ?_⟩
            · simp only [markAt_t]; exact h.sub
            · intro pr hpr
              rcases List.mem_append.1 hpr with hp | hp
              · exact h.valid pr hp
              · rw [List.mem_singleton] at hp
                rw [hp]
                exact ⟨hlt, hv.1, hpc.1, hpc.2⟩
            · intro pr hpr
              rcases List.mem_append.1 hpr with hp | hp
              · exact h.mem pr hp
              · rw [List.mem_singleton] at hp
                rw [hp]
                exact ⟨hvs, hcs⟩
            · simp only [hused]
              rw [List.nodup_append]
              refine ⟨h.nodup, ?_, ?_⟩
              · simp only [List.nodup_cons, List.mem_singleton, List.not_mem_nil, not_false_eq_true, List.nodup_nil,
                  and_true]
                omega
              · intro a ha b hb hab
                rw [hab] at ha
                rcases List.mem_cons.1 hb with hb' | hb'
                · rw [hb'] at ha; exact h.free v hvm hv.2 ha
                · rw [List.mem_singleton] at hb'
                  rw [hb'] at ha; exact h.free c hcm hc ha
            · intro e he hem
              simp only [hused]
              obtain ⟨k, hk⟩ := List.mem_iff_getElem?.1 he
              obtain ⟨hkj, hk1⟩ := markAt_getElem? _ _ _ _ hk hem
              obtain ⟨hki, hk2⟩ := markAt_getElem? _ _ _ _ hk1 hem
              rw [List.mem_append]
              rintro (hu | hu)
              · exact h.free e (List.mem_of_getElem? hk2) hem hu
              · have hne : ∀ (m : Nat) (w : Entry), s.buf[m]? = some w → k ≠ m → e.t.time ≠ w.t.time := by
                  intro m w hm hkm heq
                  rcases Nat.lt_or_gt_of_ne hkm with hlt' | hlt'
                  · have := buf_time_lt seen hs s.buf h.sub k m e w hlt' hk2 hm; omega
                  · have := buf_time_lt seen hs s.buf h.sub m k w e hlt' hm hk2; omega
                rcases List.mem_cons.1 hu with hu' | hu'
                · exact hne i v hi hki hu'
                · rw [List.mem_singleton] at hu'
                  exact hne j c hj hkj hu'
            · intro e he hem
              simp only [hused]
              obtain ⟨k, hk⟩ := List.mem_iff_getElem?.1 he
              obtain ⟨e1, hk1, ht1, hm1⟩ := markAt_marked _ _ _ _ hk
              obtain ⟨e2, hk2, ht2, hm2⟩ := markAt_marked _ _ _ _ hk1
              rw [← ht1, ← ht2, List.mem_append]
              rcases hm1 with hm1 | hm1
              · rcases hm2 with hm2 | hm2
                · left
                  exact h.marked e2 (List.mem_of_getElem? hk2) (by rw [hm2, hm1, hem])
                · right
                  rw [hm2, hi] at hk2
                  cases hk2
                  exact List.mem_cons_self
              · right
                rw [hm1, hj] at hk2
                cases hk2
                exact List.mem_cons_of_mem _ List.mem_cons_self
          · exact h
        · exact h
      · exact h

theorem pairInner_inv (prm : HartParams) (seen : List Transition) (hs : IncTimes seen) (n d : Nat) (hd : 0 < d)
    (s : HartBuf) (idx : Nat) (h : PairInv prm seen s) : PairInv prm seen (pairInner prm n d s idx) := by
  induction s, idx using pairInner.induct prm n d with
  | case1 s idx h1 h2 ih =>
    rw [pairInner, if_pos h1, if_pos h2]
    exact ih (tryPair_inv prm seen hs s _ _ (by omega) h)
  | case2 s idx h1 h2 => rw [pairInner, if_pos h1, if_neg h2]; exact h
  | case3 s idx h1 => rw [pairInner, if_neg h1]; exact h

theorem pairOuter_inv (prm : HartParams) (seen : List Transition) (hs : IncTimes seen) (n : Nat) (ds : List Nat)
    (hd : ∀ d ∈ ds, 0 < d) (s : HartBuf) (h : PairInv prm seen s) : PairInv prm seen (pairOuter prm n ds s) := by
  induction ds generalizing s with
  | nil => exact h
  | cons d ds ih =>
    rw [pairOuter]
    exact ih (fun d' hd' => hd d' (List.mem_cons_of_mem _ hd')) _
      (pairInner_inv prm seen hs n d (hd d List.mem_cons_self) s 0 h)

theorem pairTransitions_inv (prm : HartParams) (seen : List Transition) (hs : IncTimes seen) (s : HartBuf)
    (h : PairInv prm seen s) : PairInv prm seen (pairTransitions prm s) := by
  unfold pairTransitions
  split
  · exact h
  · apply pairOuter_inv prm seen hs
    · intro d hd
      obtain ⟨k, _, rfl⟩ := List.mem_map.1 hd
      omega
    · exact h

theorem filter_popMiddle (buf : List Entry) (h : buf.findIdx (fun e => e.matched) < buf.length) :
    (popMiddle buf (buf.findIdx (fun e => e.matched))).filter (fun e => !e.matched)
      = buf.filter (fun e => !e.matched) := by
  rw [popMiddle_eq _ _ h]
  conv_rhs => rw [← List.take_append_drop (buf.findIdx (fun e => e.matched)) buf]
  rw [List.filter_append, List.filter_append]
  congr 1
  rw [List.drop_eq_getElem_cons h, List.filter_cons]
  have hm : (buf[buf.findIdx (fun e => e.matched)]'h).matched = true :=
    List.findIdx_getElem (p := fun e : Entry => e.matched) (w := h)
  rw [hm]
  rfl

/-- `clean_buffer` keeps exactly the unmarked entries, in order. -/
theorem C47_clean (buf : List Entry) : cleanBuffer buf = buf.filter (fun e => !e.matched) := by
  induction buf using cleanBuffer.induct with
  | case1 buf h ih =>
    rw [cleanBuffer, dif_pos h, ih, filter_popMiddle buf h]
  | case2 buf h =>
    rw [cleanBuffer, dif_neg h, eq_comm, List.filter_eq_self]
    intro e he
    have : buf.findIdx (fun e => e.matched) = buf.length := by
      have := List.findIdx_le_length (p := fun e : Entry => e.matched) (xs := buf)
      omega
    have := List.findIdx_eq_length.1 this e he
    simpa using this

theorem addTransition_inv (prm : HartParams) (seen : List Transition) (s : HartBuf) (b : List Entry) (t : Transition)
    (h : PairInv prm seen s) (hb : b.Sublist s.buf) (ht : ∀ a ∈ seen, a.time < t.time) :
    PairInv prm (seen ++ [t]) ⟨addTransition prm b t, s.pairs⟩ := by
  have hbs : ∀ e ∈ addTransition prm b t, e ∈ b ∨ e = ⟨t, false⟩ := by
    intro e he
    have := List.mem_of_mem_drop he
    rcases List.mem_append.1 this with h' | h'
    · exact Or.inl h'
    · exact Or.inr (List.mem_singleton.1 h')
  refine ⟨?_, h.valid, ?_, h.nodup, ?_, ?_⟩
  · unfold addTransition
    refine ((List.drop_sublist _ _).map _).trans ?_
    rw [List.map_append]
    exact List.Sublist.append ((hb.map _).trans h.sub) (List.Sublist.refl _)
  · intro pr hpr
    exact ⟨List.mem_append_left _ (h.mem pr hpr).1, List.mem_append_left _ (h.mem pr hpr).2⟩
  · intro e he hem
    rcases hbs e he with h' | h'
    · exact h.free e (hb.subset h') hem
    · intro hu
      rw [h'] at hu
      unfold usedTimes at hu
      obtain ⟨pr, hpr, hmem⟩ := List.mem_flatMap.1 hu
      have h1 := ht _ (h.mem pr hpr).1
      have h2 := ht _ (h.mem pr hpr).2
      simp only [List.mem_cons, List.not_mem_nil, or_false] at hmem
      omega
  · intro e he hem
    rcases hbs e he with h' | h'
    · exact h.marked e (hb.subset h') hem
    · rw [h'] at hem; cases hem

theorem hartStep_inv (prm : HartParams) (seen : List Transition) (s : HartBuf) (t : Transition)
    (h : PairInv prm seen s) (hs : IncTimes (seen ++ [t])) : PairInv prm (seen ++ [t]) (hartStep prm s t) := by
  unfold hartStep
  refine pairTransitions_inv prm _ hs _ (addTransition_inv prm seen s _ t h ?_ ?_)
  · split
    · rw [C47_clean]; exact List.filter_sublist
    · exact List.Sublist.refl _
  · intro a ha
    exact (List.pairwise_append.1 hs).2.2 a ha t (List.mem_singleton.2 rfl)

theorem hartFold_inv (prm : HartParams) (ts seen : List Transition) (s : HartBuf) (h : PairInv prm seen s)
    (hs : IncTimes (seen ++ ts)) : PairInv prm (seen ++ ts) (ts.foldl (hartStep prm) s) := by
  induction ts generalizing seen s with
  | nil => simpa using h
  | cons t ts ih =>
    have h1 : IncTimes (seen ++ [t]) := by
      refine List.Pairwise.sublist ?_ hs
      exact List.Sublist.append (List.Sublist.refl _) (by simp)
    have h2 : seen ++ t :: ts = (seen ++ [t]) ++ ts := by simp
    rw [List.foldl_cons, h2]
    rw [h2] at hs
    exact ih _ _ (hartStep_inv prm seen s t h h1) hs

theorem hartPair_inv (prm : HartParams) (ts : List Transition) (hs : IncTimes ts) : PairInv prm ts (hartPair prm ts) := by
  have h0 : PairInv prm [] ⟨[], []⟩ := by
    refine ⟨by simp, by simp, by simp, by simp [usedTimes], by simp, by simp⟩
  have := hartFold_inv prm ts [] ⟨[], []⟩ h0 (by simpa using hs)
  rw [List.nil_append] at this
  exact this

/-- Every pair found consists of two of the given transitions, the earlier one switching on, and cancelling each other
within the tolerance; for every buffer size. -/
theorem C47_pairs_valid (prm : HartParams) (ts : List Transition) (hs : IncTimes ts) :
    ∀ pr ∈ (hartPair prm ts).pairs, pr.1 ∈ ts ∧ pr.2 ∈ ts ∧ ValidPair prm pr.1 pr.2 :=
  fun pr hpr => ⟨((hartPair_inv prm ts hs).mem pr hpr).1, ((hartPair_inv prm ts hs).mem pr hpr).2,
    (hartPair_inv prm ts hs).valid pr hpr⟩

/-- No transition is used twice, neither by two pairs nor on both sides of one pair. -/
theorem C47_pairs_disjoint (prm : HartParams) (ts : List Transition) (hs : IncTimes ts) :
    ((hartPair prm ts).pairs.flatMap (fun pr => [pr.1.time, pr.2.time])).Nodup :=
  (hartPair_inv prm ts hs).nodup

/-! Completeness: after each step no pair is left in the buffer. -/

/-- The entries at `i` and `j` do not form an open pair. -/
def NoOpen (prm : HartParams) (buf : List Entry) (i j : Nat) : Prop :=
  ∀ v c, buf[i]? = some v → buf[j]? = some c → v.matched = false → c.matched = false → 0 < v.t.p →
    pairCondition prm v.t c.t = false

/-- A buffer obtained by marking more entries. -/
def Marks (a b : List Entry) : Prop :=
  a.length = b.length ∧ ∀ (k : Nat) (e : Entry), b[k]? = some e → e.matched = false → a[k]? = some e

theorem Marks.refl (a : List Entry) : Marks a a := ⟨rfl, fun _ _ h _ => h⟩

theorem Marks.trans {a b c : List Entry} (h1 : Marks a b) (h2 : Marks b c) : Marks a c :=
  ⟨h1.1.trans h2.1, fun k e h hm => h1.2 k e (h2.2 k e h hm) hm⟩

theorem NoOpen.marks {prm : HartParams} {a b : List Entry} {i j : Nat} (h : NoOpen prm a i j) (hm : Marks a b) :
    NoOpen prm b i j :=
  fun v c hv hc hvm hcm hp => h v c (hm.2 i v hv hvm) (hm.2 j c hc hcm) hvm hcm hp

theorem marks_markAt (a : List Entry) (i : Nat) : Marks a (markAt a i) :=
  ⟨by unfold markAt; rw [List.length_modify], fun k e h hm => (markAt_getElem? a i k e h hm).2⟩

theorem tryPair_marks (prm : HartParams) (s : HartBuf) (i j : Nat) : Marks s.buf (tryPair prm s i j).buf := by
  unfold tryPair
  split
  · split
    · split
      · split
        · exact (marks_markAt _ _).trans (marks_markAt _ _)
        · exact Marks.refl _
      · exact Marks.refl _
    · exact Marks.refl _
  · exact Marks.refl _

theorem tryPair_noOpen (prm : HartParams) (s : HartBuf) (i j : Nat) : NoOpen prm (tryPair prm s i j).buf i j := by
  intro v c hv hc hvm hcm hp
  have h1 := (tryPair_marks prm s i j).2 i v hv hvm
  have h2 := (tryPair_marks prm s i j).2 j c hc hcm
  by_contra hne
  have hcond : pairCondition prm v.t c.t = true := by
    cases hpc : pairCondition prm v.t c.t with
    | true => rfl
    | false => exact absurd hpc hne
  unfold tryPair at hc
  rw [h1, h2] at hc
  simp only [hp, hvm, and_self, if_true, hcm, hcond] at hc
  exact (markAt_getElem? _ _ _ _ hc hcm).1 rfl

theorem pairInner_marks (prm : HartParams) (n d : Nat) (s : HartBuf) (idx : Nat) :
    Marks s.buf (pairInner prm n d s idx).buf := by
  induction s, idx using pairInner.induct prm n d with
  | case1 s idx h1 h2 ih =>
    rw [pairInner, if_pos h1, if_pos h2]
    exact (tryPair_marks prm s idx (idx + d)).trans ih
  | case2 s idx h1 h2 => rw [pairInner, if_pos h1, if_neg h2]; exact Marks.refl _
  | case3 s idx h1 => rw [pairInner, if_neg h1]; exact Marks.refl _

theorem pairInner_noOpen (prm : HartParams) (n d : Nat) (hd : 0 < d) (s : HartBuf) (idx : Nat) :
    ∀ i, idx ≤ i → i + d < n → NoOpen prm (pairInner prm n d s idx).buf i (i + d) := by
  induction s, idx using pairInner.induct prm n d with
  | case1 s idx h1 h2 ih =>
    intro i hi hin
    rw [pairInner, if_pos h1, if_pos h2]
    rcases Nat.lt_or_ge idx i with hlt | hge
    · exact ih i hlt hin
    · have : i = idx := by omega
      rw [this]
      exact (tryPair_noOpen prm s idx (idx + d)).marks (pairInner_marks prm n d _ _)
  | case2 s idx h1 h2 => intro i hi hin; omega
  | case3 s idx h1 => intro i hi hin; omega

theorem pairOuter_marks (prm : HartParams) (n : Nat) (ds : List Nat) (s : HartBuf) :
    Marks s.buf (pairOuter prm n ds s).buf := by
  induction ds generalizing s with
  | nil => exact Marks.refl _
  | cons d ds ih => rw [pairOuter]; exact (pairInner_marks prm n d s 0).trans (ih _)

theorem pairOuter_noOpen (prm : HartParams) (n : Nat) (ds : List Nat) (hd : ∀ d ∈ ds, 0 < d) (s : HartBuf) :
    ∀ d ∈ ds, ∀ i, i + d < n → NoOpen prm (pairOuter prm n ds s).buf i (i + d) := by
  induction ds generalizing s with
  | nil => intro d hd'; cases hd'
  | cons d0 ds ih =>
    intro d hdm i hin
    rw [pairOuter]
    rcases List.mem_cons.1 hdm with heq | hmem
    · rw [heq] at hin ⊢
      exact (pairInner_noOpen prm n d0 (hd d0 List.mem_cons_self) s 0 i (Nat.zero_le _) hin).marks
        (pairOuter_marks prm n ds _)
    · exact ih (fun d' h' => hd d' (List.mem_cons_of_mem _ h')) _ d hmem i hin

theorem pairTransitions_marks (prm : HartParams) (s : HartBuf) : Marks s.buf (pairTransitions prm s).buf := by
  unfold pairTransitions
  split
  · exact Marks.refl _
  · exact pairOuter_marks prm _ _ s

/-- After looking for pairs, no two unmarked transitions in the buffer could still be paired. -/
theorem C47_pairs_complete (prm : HartParams) (s : HartBuf) (i j : Nat) (v c : Entry) (hij : i < j)
    (hv : (pairTransitions prm s).buf[i]? = some v) (hc : (pairTransitions prm s).buf[j]? = some c)
    (hvm : v.matched = false) (hcm : c.matched = false) (hp : 0 < v.t.p) :
    ¬ (Cancels prm v.t.p c.t.p ∧ ∀ x y, v.t.q = some x → c.t.q = some y → Cancels prm x y) := by
  rw [← pairCondition_iff]
  have hjl : j < s.buf.length := by
    rw [(pairTransitions_marks prm s).1]
    exact (List.getElem?_eq_some_iff.1 hc).1
  have hno : NoOpen prm (pairTransitions prm s).buf i j := by
    unfold pairTransitions
    rw [if_neg (by omega)]
    have := pairOuter_noOpen prm s.buf.length ((List.range (s.buf.length - 1)).map (fun i : Nat => i + 1))
      (by intro d hd; obtain ⟨k, _, rfl⟩ := List.mem_map.1 hd; omega) s (j - i)
      (List.mem_map.2 ⟨j - i - 1, by rw [List.mem_range]; omega, by omega⟩) i (by omega)
    rwa [show i + (j - i) = j by omega] at this
  rw [hno v c hv hc hvm hcm hp]
  exact Bool.false_ne_true

theorem hartStep_buf_length (prm : HartParams) (s : HartBuf) (t : Transition) :
    (hartStep prm s t).buf.length ≤ prm.bufferSize := by
  unfold hartStep
  rw [← (pairTransitions_marks prm _).1]
  show (addTransition prm _ t).length ≤ _
  unfold addTransition
  rw [List.length_drop]
  omega

/-- The buffer never holds more than `buffer_size` transitions; they are some of the transitions given, in order. -/
theorem C47_buffer (prm : HartParams) (ts : List Transition) (hs : IncTimes ts) :
    (hartPair prm ts).buf.length ≤ prm.bufferSize ∧ ((hartPair prm ts).buf.map (fun e => e.t)).Sublist ts := by
  refine ⟨?_, (hartPair_inv prm ts hs).sub⟩
  unfold hartPair
  rcases List.eq_nil_or_concat ts with rfl | ⟨ts', t, rfl⟩
  · exact Nat.zero_le _
  · rw [List.concat_eq_append, List.foldl_append]; exact hartStep_buf_length prm _ t

theorem hartStep_complete (prm : HartParams) (s : HartBuf) (t : Transition) (i j : Nat) (hij : i < j) :
    NoOpen prm (hartStep prm s t).buf i j := by
  intro v c hv hc hvm hcm hp
  unfold hartStep at hv hc
  have := C47_pairs_complete prm _ i j v c hij hv hc hvm hcm hp
  rw [← pairCondition_iff] at this
  cases h : pairCondition prm v.t c.t with
  | true => exact absurd h this
  | false => rfl

theorem tryPair_t (prm : HartParams) (s : HartBuf) (i j : Nat) :
    (tryPair prm s i j).buf.map (fun e => e.t) = s.buf.map (fun e => e.t) := by
  unfold tryPair
  split
  · split
    · split
      · split
        · simp only [markAt_t]
        · rfl
      · rfl
    · rfl
  · rfl

theorem pairInner_t (prm : HartParams) (n d : Nat) (s : HartBuf) (idx : Nat) :
    (pairInner prm n d s idx).buf.map (fun e => e.t) = s.buf.map (fun e => e.t) := by
  induction s, idx using pairInner.induct prm n d with
  | case1 s idx h1 h2 ih =>
    rw [pairInner, if_pos h1, if_pos h2, ih, tryPair_t]
  | case2 s idx h1 h2 => rw [pairInner, if_pos h1, if_neg h2]
  | case3 s idx h1 => rw [pairInner, if_neg h1]

theorem pairOuter_t (prm : HartParams) (n : Nat) (ds : List Nat) (s : HartBuf) :
    (pairOuter prm n ds s).buf.map (fun e => e.t) = s.buf.map (fun e => e.t) := by
  induction ds generalizing s with
  | nil => rfl
  | cons d ds ih => rw [pairOuter, ih, pairInner_t]

theorem pairTransitions_t (prm : HartParams) (s : HartBuf) :
    (pairTransitions prm s).buf.map (fun e => e.t) = s.buf.map (fun e => e.t) := by
  unfold pairTransitions
  split
  · rfl
  · exact pairOuter_t prm _ _ s

theorem hartFold_all (prm : HartParams) (ts seen : List Transition) (s : HartBuf)
    (h : s.buf.map (fun e => e.t) = seen) (hn : (seen ++ ts).length ≤ prm.bufferSize) :
    (ts.foldl (hartStep prm) s).buf.map (fun e => e.t) = seen ++ ts := by
  induction ts generalizing seen s with
  | nil => simpa using h
  | cons t ts ih =>
    have h2 : seen ++ t :: ts = (seen ++ [t]) ++ ts := by simp
    rw [List.foldl_cons, h2]
    rw [h2] at hn
    refine ih _ _ ?_ hn
    have hl : s.buf.length = seen.length := by rw [← h, List.length_map]
    simp only [List.length_append, List.length_cons, List.length_nil] at hn
    unfold hartStep
    rw [pairTransitions_t, if_neg (by omega)]
    unfold addTransition
    simp only [List.length_append, List.length_cons, List.length_nil]
    rw [show s.buf.length + (0 + 1) - prm.bufferSize = 0 by omega, List.drop_zero, List.map_append, h]
    rfl

/-- With a buffer large enough to hold every transition, the result is a maximal pairing: two transitions that are in no
pair cannot be paired with each other. -/
theorem C47_maximal (prm : HartParams) (ts : List Transition) (hs : IncTimes ts) (hn : ts.length ≤ prm.bufferSize)
    (a b : Transition) (ha : a ∈ ts) (hb : b ∈ ts)
    (ha' : ∀ pr ∈ (hartPair prm ts).pairs, pr.1 ≠ a ∧ pr.2 ≠ a)
    (hb' : ∀ pr ∈ (hartPair prm ts).pairs, pr.1 ≠ b ∧ pr.2 ≠ b) : ¬ ValidPair prm a b := by
  rintro ⟨hlt, hp, hcan⟩
  have hall : (hartPair prm ts).buf.map (fun e => e.t) = ts := by
    have := hartFold_all prm ts [] ⟨[], []⟩ rfl (by simpa using hn)
    rw [List.nil_append] at this
    exact this
  have hinv := hartPair_inv prm ts hs
  have hsame : ∀ x ∈ ts, ∀ y ∈ ts, x.time = y.time → x = y := by
    intro x hx y hy hxy
    by_contra hne
    obtain ⟨i, hi, rfl⟩ := List.getElem_of_mem hx
    obtain ⟨j, hj, rfl⟩ := List.getElem_of_mem hy
    rcases Nat.lt_trichotomy i j with h | h | h
    · have := List.pairwise_iff_getElem.1 hs i j hi hj h; omega
    · exact hne (by simp only [h])
    · have := List.pairwise_iff_getElem.1 hs j i hj hi h; omega
  have hfind : ∀ x ∈ ts, (∀ pr ∈ (hartPair prm ts).pairs, pr.1 ≠ x ∧ pr.2 ≠ x) →
      ∃ (i : Nat) (e : Entry), (hartPair prm ts).buf[i]? = some e ∧ e.t = x ∧ e.matched = false := by
    intro x hx hu
    have hx' := hx
    rw [← hall] at hx'
    obtain ⟨e, he, het⟩ := List.mem_map.1 hx'
    obtain ⟨i, hi⟩ := List.mem_iff_getElem?.1 he
    refine ⟨i, e, hi, het, ?_⟩
    cases hm : e.matched with
    | false => rfl
    | true =>
      have hmem := hinv.marked e he hm
      unfold usedTimes at hmem
      obtain ⟨pr, hpr, hmem⟩ := List.mem_flatMap.1 hmem
      simp only [List.mem_cons, List.not_mem_nil, or_false, het] at hmem
      rcases hmem with hmem | hmem
      · exact absurd (hsame _ (hinv.mem pr hpr).1 _ hx hmem.symm) (hu pr hpr).1
      · exact absurd (hsame _ (hinv.mem pr hpr).2 _ hx hmem.symm) (hu pr hpr).2
  obtain ⟨i, e, hi, het, hem⟩ := hfind a ha ha'
  obtain ⟨j, f, hj, hft, hfm⟩ := hfind b hb hb'
  have hij : i < j := by
    rcases Nat.lt_trichotomy i j with h | h | h
    · exact h
    · rw [h, hj] at hi
      cases hi
      rw [← het, ← hft] at hlt; omega
    · have := buf_time_lt ts hs _ hinv.sub j i f e h hj hi
      rw [het, hft] at this; omega
  have hno : NoOpen prm (hartPair prm ts).buf i j := by
    have hne : ts ≠ [] := List.ne_nil_of_mem ha
    have hsp := (List.dropLast_append_getLast hne)
    rw [← hsp]
    unfold hartPair
    rw [List.foldl_append]
    exact hartStep_complete prm _ _ i j hij
  have hc := hno e f hi hj hem hfm (by rw [het]; exact hp)
  rw [het, hft, (pairCondition_iff prm a b).2 hcan] at hc
  cases hc

/-- Two appliances with interleaved cycles and a stray transition, with a buffer of three: both cycles are paired. -/
example : (hartPair ⟨3, 35, 7/200, 1000⟩ [⟨0, 100, none⟩, ⟨1, 2000, none⟩, ⟨2, -110, none⟩, ⟨3, -2050, none⟩,
    ⟨4, -7, none⟩]).pairs = [(⟨0, 100, none⟩, ⟨2, -110, none⟩), (⟨1, 2000, none⟩, ⟨3, -2050, none⟩)] := by decide +kernel

example : IncTimes [⟨0, 100, none⟩, ⟨1, 2000, none⟩, ⟨2, -110, none⟩] := by
  unfold IncTimes; decide

/-- Eviction loses pairs: with a buffer of two the outer cycle is not found although a valid pair exists. -/
theorem C47_eviction_counterexample :
    ∃ (prm : HartParams) (ts : List Transition) (a b : Transition), IncTimes ts ∧ a ∈ ts ∧ b ∈ ts ∧
      ValidPair prm a b ∧ (hartPair prm ts).pairs = [] := by
  refine ⟨⟨2, 35, 7/200, 1000⟩, [⟨0, 100, none⟩, ⟨1, 500, none⟩, ⟨2, -300, none⟩, ⟨3, -100, none⟩],
    ⟨0, 100, none⟩, ⟨3, -100, none⟩, ?_, by simp, by simp, ⟨by decide, by decide, ?_, by simp⟩, by decide +kernel⟩
  · unfold IncTimes; decide
  · exact (matchTol_cancels _ _ _).1 (by decide +kernel)

/-! ### C49 -/

/-- Whether the appliance is known to be on just before sample `k`: the last switching event before `k` was a switch-on;
before any event it is on if the first state is unknown and the previous state was on. -/
def OnBefore (values : List Int) (prev : Int) : Nat → Prop
  | 0 => values.getD 0 0 ≠ 0 ∧ values.getD 0 0 ≠ 1 ∧ prev ≠ -1 ∧ prev ≠ 0
  | k + 1 => values.getD k 0 = 1 ∨ (values.getD k 0 ≠ 0 ∧ OnBefore values prev k)

/-- The samples given the centroid: those where the appliance was on before and is not switched off, except the very
last one; and the sample after a switch-on from off, whatever happens there. -/
def GetsPower (values : List Int) (prev : Int) (k : Nat) : Prop :=
  (OnBefore values prev k ∧ values.getD k 0 ≠ 0 ∧ k < values.length - 1) ∨
  (0 < k ∧ values.getD (k - 1) 0 = 1 ∧ ¬ OnBefore values prev (k - 1))

section
variable {α : Type}

theorem fillWhile_spec (values : List Int) (stop : Int) (w : α) (i : Nat) (power : List α) :
    (fillWhile values stop w i power).2.length = power.length ∧
    (i ≤ values.length - 1 → (fillWhile values stop w i power).1 ≤ values.length - 1) ∧
    (∀ k, i ≤ k → k < (fillWhile values stop w i power).1 → values.getD k 0 ≠ stop ∧ k < values.length - 1) ∧
    ((fillWhile values stop w i power).1 < values.length - 1 →
      values.getD (fillWhile values stop w i power).1 0 = stop) ∧
    (∀ k, k < power.length → (fillWhile values stop w i power).2[k]? =
      if i ≤ k ∧ k < (fillWhile values stop w i power).1 then some w else power[k]?) := by
  induction i, power using fillWhile.induct values stop w with
  | case1 i power h ih =>
    have hge := fillWhile_ge values stop w (i + 1) (power.set i w)
    rw [fillWhile, if_pos h]
    obtain ⟨h1, h2, h3, h4, h5⟩ := ih
    refine ⟨by rw [h1, List.length_set], fun _ => h2 (by omega), ?_, h4, ?_⟩
    · intro k hk hk2
      rcases Nat.lt_or_ge i k with hlt | hle
      · exact h3 k hlt hk2
      · have : k = i := by omega
        rw [this]; exact h
    · intro k hk
      rw [h5 k (by rw [List.length_set]; exact hk)]
      by_cases hki : k = i
      · rw [hki, if_neg (by omega), if_pos (by omega), List.getElem?_set_self (by omega)]
      · rw [List.getElem?_set_ne (by omega)]
        by_cases hc : i + 1 ≤ k ∧ k < (fillWhile values stop w (i + 1) (power.set i w)).1
        · rw [if_pos hc, if_pos (by omega)]
        · rw [if_neg hc, if_neg (by omega)]
  | case2 i power h =>
    rw [fillWhile, if_neg h]
    refine ⟨rfl, id, fun k hk hk2 => by omega, ?_, fun k hk => by rw [if_neg (by omega)]⟩
    intro hlt
    by_contra hne
    exact h ⟨hne, hlt⟩

open Classical in
/-- What has been written when the outer loop is at `i`. -/
structure FillInv (values : List Int) (prev : Int) (z c : α) (i : Nat) (power : List α) : Prop where
  len : power.length = values.length
  le : i ≤ values.length - 1
  done : ∀ k, k ≤ i → k < values.length → power[k]? = some (if GetsPower values prev k then c else z)
  rest : ∀ k, i < k → k < values.length → power[k]? = some z
  event : i < values.length - 1 →
    values.getD i 0 = 0 ∨ (values.getD i 0 = 1 ∧ ¬ OnBefore values prev i)

theorem onPhase (values : List Int) (prev : Int) (i j : Nat) (hon : OnBefore values prev i)
    (h : ∀ k, i ≤ k → k < j → values.getD k 0 ≠ 0) : ∀ k, i ≤ k → k ≤ j → OnBefore values prev k := by
  intro k hk hkj
  induction k with
  | zero => have : i = 0 := by omega
            rw [this] at hon; exact hon
  | succ k ih =>
    rcases Nat.lt_or_ge i (k + 1) with hlt | hge
    · exact Or.inr ⟨h k (by omega) (by omega), ih (by omega) (by omega)⟩
    · have : i = k + 1 := by omega
      rw [this] at hon; exact hon

theorem offPhase (values : List Int) (prev : Int) (i j : Nat) (hoff : ¬ OnBefore values prev i)
    (h : ∀ k, i ≤ k → k < j → values.getD k 0 ≠ 1) : ∀ k, i ≤ k → k ≤ j → ¬ OnBefore values prev k := by
  intro k hk hkj
  induction k with
  | zero => have : i = 0 := by omega
            rw [this] at hoff; exact hoff
  | succ k ih =>
    rcases Nat.lt_or_ge i (k + 1) with hlt | hge
    · rintro (h' | h')
      · exact h k (by omega) (by omega) h'
      · exact ih (by omega) (by omega) h'.2
    · have : i = k + 1 := by omega
      rw [this] at hoff; exact hoff

theorem fill_on (values : List Int) (prev : Int) (z c : α) (i : Nat) (power : List α)
    (h : FillInv values prev z c i power) (hi : i < values.length - 1) (h1 : values.getD i 0 = 1) :
    FillInv values prev z c (fillWhile values 0 c (i + 1) (power.set (i + 1) c)).1
      (fillWhile values 0 c (i + 1) (power.set (i + 1) c)).2 := by
  obtain ⟨s1, s2, s3, s4, s5⟩ := fillWhile_spec values 0 c (i + 1) (power.set (i + 1) c)
  have hge := fillWhile_ge values 0 c (i + 1) (power.set (i + 1) c)
  generalize (fillWhile values 0 c (i + 1) (power.set (i + 1) c)).1 = j at *
  generalize (fillWhile values 0 c (i + 1) (power.set (i + 1) c)).2 = power' at *
  rw [List.length_set] at s1 s5
  have hlen := h.len
  have hoff : ¬ OnBefore values prev i := by
    rcases h.event hi with h' | h'
    · rw [h1] at h'; exact absurd h' (by decide)
    · exact h'.2
  have hon : ∀ k, i + 1 ≤ k → k ≤ j → OnBefore values prev k :=
    onPhase values prev (i + 1) j (Or.inl h1) (fun k hk hkj => (s3 k hk hkj).1)
  refine ⟨by omega, s2 (by omega), ?_, ?_, fun hj => Or.inl (s4 hj)⟩
  · intro k hkj hk
    rw [s5 k (by omega)]
    by_cases hki : k ≤ i
    · rw [if_neg (by omega), List.getElem?_set_ne (by omega)]
      exact h.done k hki hk
    · by_cases hkj' : k < j
      · rw [if_pos (by omega), if_pos (show GetsPower values prev k from Or.inl ⟨hon k (by omega) hkj, s3 k (by omega) hkj'⟩)]
      · have hkj'' : k = j := by omega
        rw [if_neg (by omega)]
        by_cases hk1 : k = i + 1
        · rw [hk1, List.getElem?_set_self (by omega), if_pos]
          exact Or.inr ⟨by omega, h1, hoff⟩
        · rw [List.getElem?_set_ne (by omega), h.rest k (by omega) hk, if_neg]
          rintro (⟨_, hv, hlt⟩ | ⟨_, _, hno⟩)
          · rw [hkj''] at hv hlt
            exact hv (s4 hlt)
          · exact hno (hon (k - 1) (by omega) (by omega))
  · intro k hk hkn
    rw [s5 k (by omega), if_neg (by omega), List.getElem?_set_ne (by omega)]
    exact h.rest k (by omega) hkn

theorem fill_off (values : List Int) (prev : Int) (z c : α) (i : Nat) (power : List α)
    (h : FillInv values prev z c i power) (hi : i < values.length - 1) (h0 : values.getD i 0 = 0) :
    FillInv values prev z c (fillWhile values 1 z (i + 1) (power.set (i + 1) z)).1
      (fillWhile values 1 z (i + 1) (power.set (i + 1) z)).2 := by
  obtain ⟨s1, s2, s3, s4, s5⟩ := fillWhile_spec values 1 z (i + 1) (power.set (i + 1) z)
  have hge := fillWhile_ge values 1 z (i + 1) (power.set (i + 1) z)
  generalize (fillWhile values 1 z (i + 1) (power.set (i + 1) z)).1 = j at *
  generalize (fillWhile values 1 z (i + 1) (power.set (i + 1) z)).2 = power' at *
  rw [List.length_set] at s1 s5
  have hlen := h.len
  have hoff : ∀ k, i + 1 ≤ k → k ≤ j → ¬ OnBefore values prev k := by
    refine offPhase values prev (i + 1) j ?_ (fun k hk hkj => (s3 k hk hkj).1)
    rintro (h' | h')
    · rw [h0] at h'; exact absurd h' (by decide)
    · exact h'.1 h0
  refine ⟨by omega, s2 (by omega), ?_, ?_, fun hj => Or.inr ⟨s4 hj, hoff j hge (Nat.le_refl _)⟩⟩
  · intro k hkj hk
    rw [s5 k (by omega)]
    by_cases hki : k ≤ i
    · rw [if_neg (by omega), List.getElem?_set_ne (by omega)]
      exact h.done k hki hk
    · have hng : ¬ GetsPower values prev k := by
        rintro (⟨hon, _⟩ | ⟨_, hv, _⟩)
        · exact hoff k (by omega) hkj hon
        · by_cases hk1 : k - 1 = i
          · rw [hk1, h0] at hv; exact absurd hv (by decide)
          · exact (s3 (k - 1) (by omega) (by omega)).1 hv
      rw [if_neg hng]
      by_cases hkj' : k < j
      · rw [if_pos (by omega)]
      · rw [if_neg (by omega)]
        by_cases hk1 : k = i + 1
        · rw [hk1, List.getElem?_set_self (by omega)]
        · rw [List.getElem?_set_ne (by omega), h.rest k (by omega) hk]
  · intro k hk hkn
    rw [s5 k (by omega), if_neg (by omega), List.getElem?_set_ne (by omega)]
    exact h.rest k (by omega) hkn

theorem assignLoop_inv (values : List Int) (prev : Int) (z c : α) (i : Nat) (power : List α)
    (h : FillInv values prev z c i power) :
    FillInv values prev z c (values.length - 1) (assignLoop values prev z c i power) := by
  induction i, power using assignLoop.induct values prev z c with
  | case1 i power hi h1 ih =>
    rw [assignLoop, dif_pos hi, if_pos h1]
    exact ih (fill_on values prev z c i power h hi h1)
  | case2 i power hi h1 h0 ih =>
    rw [assignLoop, dif_pos hi, if_neg h1, if_pos h0]
    exact ih (fill_off values prev z c i power h hi h0)
  | case3 i power hi h1 h0 hp ih =>
    rcases h.event hi with h' | h'
    · exact absurd h' h0
    · exact absurd h'.1 h1
  | case4 i power hi h1 h0 hp ih =>
    rcases h.event hi with h' | h'
    · exact absurd h' h0
    · exact absurd h'.1 h1
  | case5 i power hi =>
    rw [assignLoop, dif_neg hi]
    have : i = values.length - 1 := by have := h.le; omega
    rw [this] at h
    exact h

theorem assign_first (values : List Int) (prev : Int) (z c : α) :
    FillInv values prev z c (values.length - 1)
      (assignLoop values prev z c 0 (List.replicate values.length z)) := by
  have hz : ∀ k, k < values.length → (List.replicate values.length z)[k]? = some z := by
    intro k hk
    rw [List.getElem?_replicate, if_pos hk]
  by_cases hi : 0 < values.length - 1
  · by_cases hev : values.getD 0 0 = 0 ∨ values.getD 0 0 = 1
    · have hoff : ¬ OnBefore values prev 0 := by
        rintro ⟨a, b, _⟩
        rcases hev with h | h
        · exact a h
        · exact b h
      refine assignLoop_inv values prev z c 0 _ ⟨List.length_replicate, by omega, ?_, fun k _ hk => hz k hk, ?_⟩
      · intro k hk hkn
        have hk0 : k = 0 := by omega
        rw [hz k hkn, if_neg]
        rw [hk0]
        rintro (⟨h', _⟩ | ⟨h', _⟩)
        · exact hoff h'
        · omega
      · intro _
        rcases hev with h | h
        · exact Or.inl h
        · exact Or.inr ⟨h, hoff⟩
    · have h0 : values.getD 0 0 ≠ 0 := fun h => hev (Or.inl h)
      have h1 : values.getD 0 0 ≠ 1 := fun h => hev (Or.inr h)
      rw [assignLoop, dif_pos hi, if_neg h1, if_neg h0]
      by_cases hp : prev = -1 ∨ prev = 0
      · rw [if_pos hp]
        apply assignLoop_inv
        obtain ⟨s1, s2, s3, s4, s5⟩ := fillWhile_spec values 1 z 0 ((List.replicate values.length z).set 0 z)
        generalize (fillWhile values 1 z 0 ((List.replicate values.length z).set 0 z)).1 = j at *
        generalize (fillWhile values 1 z 0 ((List.replicate values.length z).set 0 z)).2 = power' at *
        rw [List.length_set, List.length_replicate] at s1 s5
        have hset : (List.replicate values.length z).set 0 z = List.replicate values.length z := by
          cases values.length with
          | zero => rfl
          | succ n => rfl
        rw [hset] at s5
        have hoff : ∀ k, 0 ≤ k → k ≤ j → ¬ OnBefore values prev k := by
          refine offPhase values prev 0 j ?_ (fun k hk hkj => (s3 k hk hkj).1)
          rintro ⟨_, _, a, b⟩
          rcases hp with h | h
          · exact a h
          · exact b h
        refine ⟨s1, s2 (by omega), ?_, ?_, fun hj => Or.inr ⟨s4 hj, hoff j (by omega) (Nat.le_refl _)⟩⟩
        · intro k hkj hk
          rw [s5 k hk, hz k hk, ite_self, if_neg]
          rintro (⟨hon, _⟩ | ⟨_, hv, _⟩)
          · exact hoff k (by omega) hkj hon
          · exact (s3 (k - 1) (by omega) (by omega)).1 hv
        · intro k hkj hk
          rw [s5 k hk, hz k hk, ite_self]
      · rw [if_neg hp]
        apply assignLoop_inv
        have hgt := fillWhile_gt values 0 c 0 ((List.replicate values.length z).set 0 c) ⟨h0, hi⟩
        obtain ⟨s1, s2, s3, s4, s5⟩ := fillWhile_spec values 0 c 0 ((List.replicate values.length z).set 0 c)
        generalize (fillWhile values 0 c 0 ((List.replicate values.length z).set 0 c)).1 = j at *
        generalize (fillWhile values 0 c 0 ((List.replicate values.length z).set 0 c)).2 = power' at *
        rw [List.length_set, List.length_replicate] at s1 s5
        have hon : ∀ k, 0 ≤ k → k ≤ j → OnBefore values prev k :=
          onPhase values prev 0 j ⟨h0, h1, fun h => hp (Or.inl h), fun h => hp (Or.inr h)⟩
            (fun k hk hkj => (s3 k hk hkj).1)
        refine ⟨s1, s2 (by omega), ?_, ?_, fun hj => Or.inl (s4 hj)⟩
        · intro k hkj hk
          rw [s5 k hk]
          by_cases hkj' : k < j
          · rw [if_pos (by omega), if_pos (show GetsPower values prev k from Or.inl ⟨hon k (by omega) hkj, s3 k (by omega) hkj'⟩)]
          · have hkj'' : k = j := by omega
            rw [if_neg (by omega), List.getElem?_set_ne (by omega), hz k hk, if_neg]
            rintro (⟨_, hv, hlt⟩ | ⟨_, _, hno⟩)
            · rw [hkj''] at hv hlt; exact hv (s4 hlt)
            · exact hno (hon (k - 1) (by omega) (by omega))
        · intro k hkj hk
          rw [s5 k hk, if_neg (by omega), List.getElem?_set_ne (by omega), hz k hk]
  · rw [assignLoop, dif_neg hi]
    refine ⟨List.length_replicate, Nat.le_refl _, ?_, fun k _ hk => hz k hk, fun h => absurd h (Nat.lt_irrefl _)⟩
    intro k hk hkn
    rw [hz k hkn, if_neg]
    rintro (⟨_, _, h'⟩ | ⟨h', _⟩)
    · omega
    · omega

end

open Classical in
/-- The result in closed form, for every sequence of states (including values other than 0, 1 and -1), every previous
state and every centroid: the samples that get the (truncated) centroid are exactly those of `GetsPower`; all others
are zero. That the function is total is part of the claim. -/
theorem C49_exact (values : List Int) (prev : Int) (centroid : List Rat) :
    (assignPower values prev centroid).length = values.length ∧
    ∀ k, k < values.length → (assignPower values prev centroid)[k]? =
      some (if GetsPower values prev k then centroid.map truncInt else centroid.map (fun _ => 0)) := by
  have h := assign_first values prev (centroid.map (fun _ => (0 : Int))) (centroid.map truncInt)
  exact ⟨h.len, fun k hk => h.done k (by omega) hk⟩

theorem truncInt_ofInt (n : Int) : truncInt (n : Rat) = n := by
  unfold truncInt
  simp

theorem map_trunc_ofInt (c : List Int) : (c.map (fun n : Int => (n : Rat))).map truncInt = c := by
  rw [List.map_map]
  conv_rhs => rw [← List.map_id c]
  apply List.map_congr_left
  intro n _
  exact truncInt_ofInt n

/-- For centroids that are whole numbers, every sample is zero or the centroid. -/
theorem C49_values_partial (values : List Int) (prev : Int) (c : List Int) :
    ∀ p ∈ assignPower values prev (c.map (fun n : Int => (n : Rat))), p = c ∨ ∀ x ∈ p, x = 0 := by
  intro p hp
  obtain ⟨k, hk⟩ := List.mem_iff_getElem?.1 hp
  obtain ⟨hl, he⟩ := C49_exact values prev (c.map (fun n : Int => (n : Rat)))
  have hlt : k < values.length := by
    rw [← hl]; exact (List.getElem?_eq_some_iff.1 hk).1
  rw [he k hlt, Option.some.injEq, map_trunc_ofInt] at hk
  split at hk
  · exact Or.inl hk.symm
  · right
    rw [← hk]
    intro x hx
    rw [List.map_map] at hx
    obtain ⟨_, _, rfl⟩ := List.mem_map.1 hx
    rfl

/-- For centroids that are whole numbers, every sample strictly between a switch-on and the following switch-off is the
centroid. -/
theorem C49_between_partial (values : List Int) (prev : Int) (c : List Int) (o z k : Nat) (hz : z < values.length)
    (ho : values.getD o 0 = 1) (hnext : ∀ m, o < m → m < z → values.getD m 0 ≠ 0) (hok : o < k) (hkz : k < z) :
    (assignPower values prev (c.map (fun n : Int => (n : Rat))))[k]? = some c := by
  rw [(C49_exact values prev _).2 k (by omega), map_trunc_ofInt, if_pos]
  refine Or.inl ⟨?_, hnext k hok hkz, by omega⟩
  exact onPhase values prev (o + 1) k (Or.inl ho) (fun m h1 h2 => hnext m (by omega) (by omega)) k (by omega)
    (Nat.le_refl _)

/-- Every sample after a switch-off, up to and including the following switch-on, is zero, whatever the centroid. -/
theorem C49_off (values : List Int) (prev : Int) (centroid : List Rat) (z k : Nat) (hk : k < values.length)
    (hz : values.getD z 0 = 0) (hnext : ∀ m, z < m → m < k → values.getD m 0 ≠ 1) (hzk : z < k) :
    (assignPower values prev centroid)[k]? = some (centroid.map (fun _ => 0)) := by
  rw [(C49_exact values prev _).2 k hk, if_neg]
  have hoff : ∀ m, z + 1 ≤ m → m ≤ k → ¬ OnBefore values prev m := by
    refine offPhase values prev (z + 1) k ?_ (fun m h1 h2 => hnext m (by omega) h2)
    rintro (h' | h')
    · rw [hz] at h'; exact absurd h' (by decide)
    · exact h'.1 hz
  rintro (⟨hon, _⟩ | ⟨_, hv, _⟩)
  · exact hoff k (by omega) (Nat.le_refl _) hon
  · by_cases hk1 : k - 1 = z
    · rw [hk1, hz] at hv; exact absurd hv (by decide)
    · exact hnext (k - 1) (by omega) (by omega) hv

/-- While the state is unknown from the start and the previous state was off or unknown, the power is zero. -/
theorem C49_unknown_start (values : List Int) (prev : Int) (centroid : List Rat) (k : Nat) (hk : k < values.length)
    (hp : prev = -1 ∨ prev = 0) (hnone : ∀ m, m < k → values.getD m 0 ≠ 1) :
    (assignPower values prev centroid)[k]? = some (centroid.map (fun _ => 0)) := by
  rw [(C49_exact values prev _).2 k hk, if_neg]
  have hoff : ∀ m, 0 ≤ m → m ≤ k → ¬ OnBefore values prev m := by
    refine offPhase values prev 0 k ?_ (fun m _ h2 => hnone m h2)
    rintro ⟨_, _, a, b⟩
    rcases hp with h | h
    · exact a h
    · exact b h
  rintro (⟨hon, _⟩ | ⟨_, hv, _⟩)
  · exact hoff k (by omega) (Nat.le_refl _) hon
  · exact hnone (k - 1) (by omega) hv

example : assignPower [-1, 1, -1, -1, 0, -1, 1, 0, -1, -1] (-1) [100] =
    [[0], [0], [100], [100], [0], [0], [0], [100], [0], [0]] := by decide +kernel
example : assignPower [-1, 1, -1, -1] 1 [100, 20] = [[100, 20], [100, 20], [100, 20], [0, 0]] := by decide +kernel

/-- The centroid is truncated to whole numbers: an appliance of 99.9 W gets 99 W between switch-on and switch-off. -/
theorem C49_truncation_counterexample :
    ∃ (values : List Int) (c : Rat) (o z k : Nat), values.getD o 0 = 1 ∧ values.getD z 0 = 0 ∧ o < k ∧ k < z ∧
      (∀ m, o < m → m < z → values.getD m 0 ≠ 0) ∧ (assignPower values (-1) [c])[k]? = some [99] ∧ c = 999 / 10 := by
  refine ⟨[1, -1, 0], 999/10, 0, 2, 1, by decide, by decide, by decide, by decide, ?_, by decide +kernel, rfl⟩
  intro m h1 h2
  have : m = 1 := by omega
  rw [this]; decide

/-- The very last sample of a chunk gets no power although the appliance was switched on before and never switched
off. -/
theorem C49_last_sample_counterexample :
    ∃ (values : List Int), values.getD 0 0 = 1 ∧ (∀ v ∈ values, v ≠ 0) ∧
      assignPower values (-1) [100] = [[0], [100], [100], [0]] :=
  ⟨[1, -1, -1, -1], by decide, by decide, by decide +kernel⟩

/-- In general the last sample is zero unless the sample before it is a switch-on from off. -/
theorem C49_last_sample (values : List Int) (prev : Int) (centroid : List Rat) (hn : 0 < values.length)
    (h : values.getD (values.length - 2) 0 ≠ 1) :
    (assignPower values prev centroid)[values.length - 1]? = some (centroid.map (fun _ => 0)) := by
  rw [(C49_exact values prev _).2 _ (by omega), if_neg]
  rintro (⟨_, _, hlt⟩ | ⟨_, hv, _⟩)
  · omega
  · rw [show values.length - 1 - 1 = values.length - 2 by omega] at hv
    exact h hv

end Nilmtk
