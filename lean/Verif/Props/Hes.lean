import Mathlib.Data.List.Sort
import Mathlib.Data.List.Dedup
import Mathlib.Data.List.Nodup
import Verif.Model.Hes
import Verif.Props.Columns
/-!
C123: what the conversion of HES stores.
-/
namespace Nilmtk

/-! ### Specification -/

/-- The values in the order in which they are first there. -/
def firstSeen : List Int → List Int
  | [] => []
  | a :: l => a :: (firstSeen l).filter (fun x => decide (x ≠ a))

/-- The chunks that are read: of every file that can be opened, all or at most `max`. -/
def hesRead (max : Option Int) (files : List (Option (List (List HesRow)))) : List (List HesRow) :=
  files.flatMap (fun f => match f, max with | none, _ => [] | some cs, none => cs | some cs, some n => cs.take n.toNat)

/-- `l` are the distinct values of `vs` in ascending order. -/
def Ascending (vs l : List Int) : Prop := l.Pairwise (· < ·) ∧ ∀ x, x ∈ l ↔ x ∈ vs

/-- The readings of a house in a chunk, times 10. -/
def hesPiece (h : Int) (c : List HesRow) : List (Int × Rat) :=
  (c.filter (fun r => decide (r.house = h))).map (fun r => (r.time, r.data * 10))

/-! ### Lemmas -/

theorem groupKeys_ascending (vs : List Int) : Ascending vs (groupKeys vs) := by
  unfold groupKeys
  have hp := List.perm_insertionSort (· ≤ ·) vs.dedup
  constructor
  · have hs : ((vs.dedup).insertionSort (· ≤ ·)).Pairwise (· ≤ ·) := List.pairwise_insertionSort _ _
    have hn : ((vs.dedup).insertionSort (· ≤ ·)).Nodup := hp.nodup_iff.2 vs.nodup_dedup
    exact (hs.and hn).imp (fun h => lt_of_le_of_ne h.1 h.2)
  · intro x
    rw [hp.mem_iff, List.mem_dedup]

theorem ascending_unique {vs a b : List Int} (ha : Ascending vs a) (hb : Ascending vs b) : a = b := by
  have hna : a.Nodup := ha.1.imp (fun h => ne_of_lt h)
  have hnb : b.Nodup := hb.1.imp (fun h => ne_of_lt h)
  have hp : a.Perm b := (List.perm_ext_iff_of_nodup hna hnb).2 (fun x => by rw [ha.2, hb.2])
  exact hp.eq_of_pairwise (le := (· ≤ ·)) (fun x y _ _ h1 h2 => le_antisymm h1 h2) (ha.1.imp le_of_lt) (hb.1.imp le_of_lt)

theorem firstSeen_mem (l : List Int) (x : Int) : x ∈ firstSeen l ↔ x ∈ l := by
  induction l with
  | nil => rfl
  | cons a l ih =>
    unfold firstSeen
    rw [List.mem_cons, List.mem_cons, List.mem_filter, ih, decide_eq_true_eq]
    by_cases h : x = a <;> simp [h]

theorem firstSeen_nodup (l : List Int) : (firstSeen l).Nodup := by
  induction l with
  | nil => exact List.nodup_nil
  | cons a l ih =>
    unfold firstSeen
    rw [List.nodup_cons]
    exact ⟨by simp, ih.filter _⟩

theorem firstSeen_snoc (l : List Int) (x : Int) : firstSeen (l ++ [x]) = hesAdd (firstSeen l) x := by
  induction l with
  | nil => rfl
  | cons a l ih =>
    rw [List.cons_append, firstSeen, ih]
    unfold hesAdd
    by_cases hx : x ∈ firstSeen l
    · rw [if_pos hx, if_pos]
      · rfl
      · unfold firstSeen
        by_cases hxa : x = a
        · rw [hxa]; exact List.mem_cons_self
        · exact List.mem_cons_of_mem _ (List.mem_filter.2 ⟨hx, by simpa using hxa⟩)
    · rw [if_neg hx]
      by_cases hxa : x = a
      · rw [if_pos (by rw [hxa, firstSeen]; exact List.mem_cons_self), List.filter_append, hxa, firstSeen]
        simp
      · rw [if_neg]
        · rw [List.filter_append, firstSeen, List.cons_append]
          simp [hxa]
        · unfold firstSeen
          rw [List.mem_cons, List.mem_filter]
          rintro (h | h)
          · exact hxa h
          · exact hx h.1

/-- One step of the loops: a chunk, a house and a code. -/
abbrev HesStep := List HesRow × Int × Int

/-- What holds after the steps. -/
structure HesInv (sort : List (Int × Rat) → List (Int × Rat)) (steps : List HesStep) (s : HesState) : Prop where
  houses : s.houses = firstSeen (steps.map (fun p => p.2.1))
  codes : ∀ h, s.codes h = firstSeen ((steps.filter (fun p => decide (p.2.1 = h))).map (fun p => p.2.2))
  tables : ∀ i h j a, s.houses[i]? = some h → (s.codes h)[j]? = some a → s.store (meterKey (i + 1) (j + 1)) =
    some ⟨[("power", "active")], (steps.filter (fun p => decide (p.2.1 = h ∧ p.2.2 = a))).flatMap (fun p =>
      sort ((p.1.filter (fun r => decide (r.house = h))).map (fun r => (r.time, r.data))))⟩
  others : ∀ k, (∀ i h j a, s.houses[i]? = some h → (s.codes h)[j]? = some a → k ≠ meterKey (i + 1) (j + 1)) → s.store k = none

/-- The state after a step. -/
def hesStep (sort : List (Int × Rat) → List (Int × Rat)) (s : HesState) (p : HesStep) : HesState :=
  { houses := hesAdd s.houses p.2.1
    codes := fun h => if h = p.2.1 then hesAdd (s.codes p.2.1) p.2.2 else s.codes h
    store := s.store.appendRows (meterKey ((hesAdd s.houses p.2.1).idxOf p.2.1 + 1) ((hesAdd (s.codes p.2.1) p.2.2).idxOf p.2.2 + 1))
      (sort ((p.1.filter (fun r => decide (r.house = p.2.1))).map (fun r => (r.time, r.data)))) }

theorem hesAdd_mem (l : List Int) (x : Int) : x ∈ hesAdd l x := by
  unfold hesAdd
  split
  · assumption
  · simp

theorem hesAdd_add (l : List Int) (x : Int) : hesAdd (hesAdd l x) x = hesAdd l x := by
  conv => lhs; unfold hesAdd
  exact if_pos (hesAdd_mem l x)

theorem hesAdd_nodup {l : List Int} (h : l.Nodup) (x : Int) : (hesAdd l x).Nodup := by
  unfold hesAdd
  split
  · exact h
  · rw [List.nodup_append]
    exact ⟨h, by simp, by intro a ha b hb he; simp at hb; rw [he, hb] at ha; contradiction⟩

theorem hesAdd_get {l : List Int} (x : Int) (i : Nat) (y : Int) (hy : y ≠ x) : (hesAdd l x)[i]? = some y ↔ l[i]? = some y := by
  unfold hesAdd
  split
  · rfl
  · rw [List.getElem?_append]
    split
    · rfl
    · rename_i hlt
      rw [List.getElem?_eq_none (by omega : l.length ≤ i)]
      constructor
      · intro h
        have := List.mem_of_getElem? h
        simp at this
        exact absurd this hy
      · intro h; cases h

theorem get_idxOf_nodup {l : List Int} (h : l.Nodup) {i : Nat} {x : Int} (hi : l[i]? = some x) : l.idxOf x = i := by
  obtain ⟨hlt, rfl⟩ := List.getElem?_eq_some_iff.1 hi
  exact List.Nodup.idxOf_getElem h i hlt

theorem get_of_idxOf {l : List Int} {x : Int} (h : x ∈ l) : l[l.idxOf x]? = some x := by
  have hlt := List.idxOf_lt_length_of_mem h
  rw [List.getElem?_eq_getElem hlt, List.getElem_idxOf]

theorem hesAdd_get_old {l : List Int} {x : Int} {i : Nat} {y : Int} (h : l[i]? = some y) : (hesAdd l x)[i]? = some y := by
  unfold hesAdd
  split
  · exact h
  · rw [List.getElem?_append_left (List.getElem?_eq_some_iff.1 h).1]; exact h

theorem hesStep_inv {sort : List (Int × Rat) → List (Int × Rat)} {steps : List HesStep} {s : HesState} (hi : HesInv sort steps s)
    (p : HesStep) : HesInv sort (steps ++ [p]) (hesStep sort s p) := by
  obtain ⟨c, h0, a0⟩ := p
  have hhn : s.houses.Nodup := by rw [hi.houses]; exact firstSeen_nodup _
  have hcn : ∀ h, (s.codes h).Nodup := by intro h; rw [hi.codes]; exact firstSeen_nodup _
  have hhn' := hesAdd_nodup hhn h0
  have hcn' := hesAdd_nodup (hcn h0) a0
  refine ⟨?_, ?_, ?_, ?_⟩
  · show hesAdd s.houses h0 = _
    rw [List.map_append, hi.houses]
    exact (firstSeen_snoc _ _).symm
  · intro h
    show (if h = h0 then hesAdd (s.codes h0) a0 else s.codes h) = _
    rw [List.filter_append, List.map_append]
    by_cases hh : h = h0
    · subst hh
      rw [if_pos rfl, hi.codes h, List.filter_cons_of_pos (by simp)]
      exact (firstSeen_snoc _ _).symm
    · rw [if_neg hh, List.filter_cons_of_neg (by simpa using fun e : h0 = h => hh e.symm), hi.codes h]
      simp
  · intro i h j a h1 h2
    change (hesAdd s.houses h0)[i]? = some h at h1
    change (if h = h0 then hesAdd (s.codes h0) a0 else s.codes h)[j]? = some a at h2
    show (s.store.appendRows _ _) _ = _
    rw [List.filter_append, List.flatMap_append]
    by_cases hh : h = h0
    · subst hh
      rw [if_pos rfl] at h2
      have hix := get_idxOf_nodup hhn' h1
      by_cases ha : a = a0
      · subst ha
        have hjx := get_idxOf_nodup hcn' h2
        unfold RawStore.appendRows RawStore.put
        simp only
        rw [hix, hjx, if_pos rfl, List.filter_cons_of_pos (by simp), List.filter_nil, List.flatMap_cons, List.flatMap_nil, List.append_nil]
        congr 3
        -- the rows before
        by_cases hold : h ∈ s.houses ∧ a ∈ s.codes h
        · have e1 : s.houses[i]? = some h := by
            have := hesAdd_get_old (x := h) (get_of_idxOf hold.1)
            have h3 := get_idxOf_nodup hhn' this
            rw [hix] at h3
            rw [h3]; exact get_of_idxOf hold.1
          have e2 : (s.codes h)[j]? = some a := by
            have := hesAdd_get_old (x := a) (get_of_idxOf hold.2)
            have h3 := get_idxOf_nodup hcn' this
            rw [hjx] at h3
            rw [h3]; exact get_of_idxOf hold.2
          rw [hi.tables i h j a e1 e2]
        · have hnone : s.store (meterKey (i + 1) (j + 1)) = none := by
            apply hi.others
            intro i' h' j' a' e1 e2 he
            obtain ⟨k1, k2⟩ := meterKey_inj (by omega) (by omega) (by omega) (by omega) he
            obtain rfl : i = i' := by omega
            obtain rfl : j = j' := by omega
            have m1 := hesAdd_get_old (x := h) e1
            rw [h1] at m1
            cases m1
            have m2 := hesAdd_get_old (x := a) e2
            rw [h2] at m2
            cases m2
            exact hold ⟨List.mem_of_getElem? e1, List.mem_of_getElem? e2⟩
          rw [hnone]
          have : steps.filter (fun p => decide (p.2.1 = h ∧ p.2.2 = a)) = [] := by
            rw [List.filter_eq_nil_iff]
            intro p hp hc
            rw [decide_eq_true_eq] at hc
            apply hold
            constructor
            · rw [hi.houses, firstSeen_mem]
              exact List.mem_map.2 ⟨p, hp, hc.1⟩
            · rw [hi.codes, firstSeen_mem]
              exact List.mem_map.2 ⟨p, List.mem_filter.2 ⟨hp, by simpa using hc.1⟩, hc.2⟩
          rw [this]
          rfl
      · have h2' := (hesAdd_get a0 j a ha).1 h2
        have h1' : s.houses[i]? = some h := by
          have hm : h ∈ s.houses := by
            rw [hi.houses, firstSeen_mem]
            have := List.mem_of_getElem? h2'
            rw [hi.codes, firstSeen_mem] at this
            obtain ⟨p, hp, -⟩ := List.mem_map.1 this
            obtain ⟨hp1, hp2⟩ := List.mem_filter.1 hp
            exact List.mem_map.2 ⟨p, hp1, by simpa using hp2⟩
          have h3 := get_idxOf_nodup hhn' (hesAdd_get_old (x := h) (get_of_idxOf hm))
          rw [hix] at h3
          rw [h3]; exact get_of_idxOf hm
        unfold RawStore.appendRows RawStore.put
        simp only
        rw [if_neg, hi.tables i h j a h1' h2', List.filter_cons_of_neg (by simpa using fun e : a0 = a => ha e.symm)]
        · simp
        · intro he
          obtain ⟨k1, k2⟩ := meterKey_inj (by omega) (by omega) (by omega) (by omega) he
          have : j = (hesAdd (s.codes h) a0).idxOf a0 := by omega
          have h4 := get_of_idxOf (hesAdd_mem (s.codes h) a0)
          rw [← this, h2] at h4
          exact ha (Option.some.inj h4)
    · rw [if_neg hh] at h2
      have h1' := (hesAdd_get h0 i h hh).1 h1
      unfold RawStore.appendRows RawStore.put
      simp only
      rw [if_neg, hi.tables i h j a h1' h2, List.filter_cons_of_neg (by simpa using fun e : h0 = h => absurd e.symm hh)]
      · simp
      · intro he
        obtain ⟨k1, k2⟩ := meterKey_inj (by omega) (by omega) (by omega) (by omega) he
        have : i = (hesAdd s.houses h0).idxOf h0 := by omega
        have h4 := get_of_idxOf (hesAdd_mem s.houses h0)
        rw [← this, h1] at h4
        exact hh (Option.some.inj h4)
  · intro k hk
    change ∀ i h j a, (hesAdd s.houses h0)[i]? = some h → (if h = h0 then hesAdd (s.codes h0) a0 else s.codes h)[j]? = some a → _ at hk
    show (s.store.appendRows _ _) k = none
    unfold RawStore.appendRows RawStore.put
    simp only
    rw [if_neg]
    · apply hi.others
      intro i h j a e1 e2
      apply hk i h j a (hesAdd_get_old e1)
      split
      · rename_i hh; subst hh; exact hesAdd_get_old e2
      · exact e2
    · refine hk _ h0 _ a0 (get_of_idxOf (hesAdd_mem _ _)) ?_
      rw [if_pos rfl]
      exact get_of_idxOf (hesAdd_mem _ _)

/-! ### The loops -/

theorem hesProcess_ok (sort : List (Int × Rat) → List (Int × Rat)) (b m : Nat) (rows : List HesRow) (st : RawStore Rat) :
    hesProcess sort (b + 1) (m + 1) rows st =
      .ok (st.appendRows (meterKey (b + 1) (m + 1)) (sort (rows.map (fun r => (r.time, r.data))))) := by
  obtain ⟨h1, h2⟩ := key_numbers (b + 1) (m + 1) (by omega) (by omega)
  unfold hesProcess
  rw [h1]
  simp only
  rw [h2]

theorem hesAppliances_fold (sort : List (Int × Rat) → List (Int × Rat)) (c : List HesRow) (h : Int) (as : List Int) (s : HesState)
    (hm : h ∈ s.houses) : hesAppliances sort h (c.filter (fun r => decide (r.house = h))) as s =
      ((as.map (fun a => (c, h, a))).foldl (hesStep sort) s, none) := by
  induction as generalizing s with
  | nil => rfl
  | cons a as ih =>
    have hadd : hesAdd s.houses h = s.houses := if_pos hm
    unfold hesAppliances
    simp only
    rw [hesProcess_ok]
    simp only
    rw [ih, List.map_cons, List.foldl_cons]
    · unfold hesStep
      simp only [hadd]
    · exact hm

theorem hesHouses_fold (sort : List (Int × Rat) → List (Int × Rat)) (c : List HesRow) (hc : c ≠ []) (hs : List Int) (s : HesState) :
    hesHouses sort c hs s =
      ((hs.flatMap (fun h => (groupKeys (c.map HesRow.code)).map (fun a => (c, h, a)))).foldl (hesStep sort) s, none) := by
  induction hs generalizing s with
  | nil => rfl
  | cons h hs ih =>
    unfold hesHouses
    rw [hesAppliances_fold sort c h _ _ (hesAdd_mem _ _)]
    simp only
    rw [ih, List.flatMap_cons, List.foldl_append]
    congr 2
    cases hk : groupKeys (c.map HesRow.code) with
    | nil =>
      obtain ⟨r, hr⟩ := List.exists_mem_of_ne_nil c hc
      have := ((groupKeys_ascending (c.map HesRow.code)).2 r.code).2 (List.mem_map.2 ⟨r, hr, rfl⟩)
      rw [hk] at this
      cases this
    | cons a as =>
      rw [List.map_cons, List.foldl_cons, List.foldl_cons]
      congr 1
      unfold hesStep
      simp only [hesAdd_add]

/-- The chunk after the multiplication. -/
def hesScale (c : List HesRow) : List HesRow := c.map (fun r => { r with data := r.data * 10 })

/-- The steps of a chunk. -/
def hesSteps (c : List HesRow) : List HesStep :=
  (groupKeys (c.map HesRow.house)).flatMap (fun h => (groupKeys (c.map HesRow.code)).map (fun a => (hesScale c, h, a)))

theorem hesScale_house (c : List HesRow) : (hesScale c).map HesRow.house = c.map HesRow.house := by
  unfold hesScale; rw [List.map_map]; rfl

theorem hesScale_code (c : List HesRow) : (hesScale c).map HesRow.code = c.map HesRow.code := by
  unfold hesScale; rw [List.map_map]; rfl

theorem hesChunk_fold (sort : List (Int × Rat) → List (Int × Rat)) (c : List HesRow) (s : HesState) :
    hesHouses sort (hesScale c) (groupKeys ((hesScale c).map HesRow.house)) s = ((hesSteps c).foldl (hesStep sort) s, none) := by
  by_cases hc : c = []
  · subst hc; rfl
  · rw [hesHouses_fold sort _ (by unfold hesScale; simpa using hc), hesScale_house, hesScale_code]
    rfl

theorem hesChunks_fold (sort : List (Int × Rat) → List (Int × Rat)) (max : Option Int) (cs : List (List HesRow)) (i : Int) (s : HesState) :
    hesChunks sort max cs i s =
      (((match max with | none => cs | some n => cs.take (n - i).toNat).flatMap hesSteps).foldl (hesStep sort) s, none) := by
  induction cs generalizing i s with
  | nil => cases max <;> simp [hesChunks]
  | cons c cs ih =>
    unfold hesChunks
    have hstep := hesChunk_fold sort c s
    unfold hesScale at hstep
    cases max with
    | none =>
      simp only [Option.any_none, Bool.false_eq_true, if_false]
      rw [hstep]
      simp only
      rw [ih, List.flatMap_cons, List.foldl_append]
    | some n =>
      simp only [Option.any_some, decide_eq_true_eq]
      by_cases hn : n ≤ i
      · rw [if_pos hn, show (n - i).toNat = 0 by omega]
        rfl
      · rw [if_neg hn, hstep]
        simp only
        rw [ih, show (n - i).toNat = (n - (i + 1)).toNat + 1 by omega, List.take_succ_cons, List.flatMap_cons, List.foldl_append]

theorem hesFiles_fold (sort : List (Int × Rat) → List (Int × Rat)) (max : Option Int) (files : List (Option (List (List HesRow))))
    (s : HesState) : hesFiles sort max files s = (((hesRead max files).flatMap hesSteps).foldl (hesStep sort) s, none) := by
  induction files generalizing s with
  | nil => rfl
  | cons f fs ih =>
    cases f with
    | none => unfold hesFiles; rw [ih]; rfl
    | some cs =>
      unfold hesFiles
      rw [hesChunks_fold]
      simp only
      rw [ih]
      unfold hesRead
      rw [List.flatMap_cons, List.flatMap_append, List.foldl_append]
      cases max with
      | none => rfl
      | some n => simp only [Int.sub_zero]

theorem hesFold_inv (sort : List (Int × Rat) → List (Int × Rat)) (more : List HesStep) : ∀ (steps : List HesStep) (s : HesState),
    HesInv sort steps s → HesInv sort (steps ++ more) (more.foldl (hesStep sort) s) := by
  induction more with
  | nil => intro steps s h; rw [List.append_nil]; exact h
  | cons p more ih =>
    intro steps s h
    rw [List.append_cons, List.foldl_cons]
    exact ih _ _ (hesStep_inv h p)

theorem firstSeen_fold (l : List Int) : firstSeen l = l.foldl hesAdd [] := by
  induction l using List.reverseRecOn with
  | nil => rfl
  | append_singleton l x ih => rw [firstSeen_snoc, ih, List.foldl_append]; rfl

theorem fold_constant (h : Int) {β : Type} (A : List β) (hA : A ≠ []) (acc : List Int) :
    (A.map (fun _ => h)).foldl hesAdd acc = hesAdd acc h := by
  cases A with
  | nil => exact absurd rfl hA
  | cons a as =>
    rw [List.map_cons, List.foldl_cons]
    induction as with
    | nil => rfl
    | cons b bs ih => rw [List.map_cons, List.foldl_cons, hesAdd_add]; exact ih (by simp)

theorem fold_flatMap {β : Type} (hs : List Int) (A : List β) (hA : A ≠ [] ∨ hs = []) (acc : List Int) :
    (hs.flatMap (fun h => A.map (fun _ => h))).foldl hesAdd acc = hs.foldl hesAdd acc := by
  induction hs generalizing acc with
  | nil => rfl
  | cons h hs ih =>
    have hA' : A ≠ [] := hA.resolve_right (by simp)
    rw [List.flatMap_cons, List.foldl_append, fold_constant h A hA', List.foldl_cons]
    exact ih (.inl hA') _

theorem groupKeys_nodup (vs : List Int) : (groupKeys vs).Nodup := (groupKeys_ascending vs).1.imp (fun h => ne_of_lt h)

theorem steps_houses (cs : List (List HesRow)) : firstSeen ((cs.flatMap hesSteps).map (fun p => p.2.1)) =
    firstSeen (cs.flatMap (fun c => groupKeys (c.map HesRow.house))) := by
  rw [firstSeen_fold, firstSeen_fold]
  generalize ([] : List Int) = acc
  induction cs generalizing acc with
  | nil => rfl
  | cons c cs ih =>
    rw [List.flatMap_cons, List.flatMap_cons, List.map_append, List.foldl_append, List.foldl_append, ih]
    congr 1
    unfold hesSteps
    rw [List.map_flatMap]
    simp only [List.map_map]
    refine fold_flatMap _ (groupKeys (c.map HesRow.code)) ?_ acc
    cases c with
    | nil => exact .inr rfl
    | cons r c =>
      refine .inl (List.ne_nil_of_mem ((groupKeys_ascending _).2 r.code |>.2 (by simp)))

theorem filter_house (c : List HesRow) (A hs : List Int) (hn : hs.Nodup) (h : Int) :
    (hs.flatMap (fun x => A.map (fun a => ((c, x, a) : HesStep)))).filter (fun p => decide (p.2.1 = h)) =
      if h ∈ hs then A.map (fun a => (c, h, a)) else [] := by
  induction hs with
  | nil => rfl
  | cons x hs ih =>
    rw [List.nodup_cons] at hn
    rw [List.flatMap_cons, List.filter_append, ih hn.2]
    by_cases hx : x = h
    · subst hx
      rw [if_neg hn.1, if_pos List.mem_cons_self, List.append_nil, List.filter_eq_self.2]
      intro p hp
      obtain ⟨a, -, rfl⟩ := List.mem_map.1 hp
      simp
    · have : (A.map (fun a => ((c, x, a) : HesStep))).filter (fun p => decide (p.2.1 = h)) = [] := by
        rw [List.filter_eq_nil_iff]
        intro p hp
        obtain ⟨a, -, rfl⟩ := List.mem_map.1 hp
        simpa using hx
      rw [this, List.nil_append]
      by_cases hm : h ∈ hs
      · rw [if_pos hm, if_pos (List.mem_cons_of_mem _ hm)]
      · rw [if_neg hm, if_neg]
        rw [List.mem_cons]
        rintro (e | e)
        · exact hx e.symm
        · exact hm e

theorem steps_house (c : List HesRow) (h : Int) : (hesSteps c).filter (fun p => decide (p.2.1 = h)) =
    if h ∈ c.map HesRow.house then (groupKeys (c.map HesRow.code)).map (fun a => (hesScale c, h, a)) else [] := by
  unfold hesSteps
  rw [filter_house _ _ _ (groupKeys_nodup _)]
  by_cases hm : h ∈ c.map HesRow.house
  · rw [if_pos hm, if_pos (((groupKeys_ascending _).2 h).2 hm)]
  · rw [if_neg hm, if_neg (fun hk => hm (((groupKeys_ascending _).2 h).1 hk))]

theorem steps_codes (cs : List (List HesRow)) (h : Int) :
    ((cs.flatMap hesSteps).filter (fun p => decide (p.2.1 = h))).map (fun p => p.2.2) =
      (cs.filter (fun c => decide (h ∈ c.map HesRow.house))).flatMap (fun c => groupKeys (c.map HesRow.code)) := by
  induction cs with
  | nil => rfl
  | cons c cs ih =>
    rw [List.flatMap_cons, List.filter_append, List.map_append, ih, steps_house]
    by_cases hm : h ∈ c.map HesRow.house
    · rw [if_pos hm, List.filter_cons_of_pos (by simpa using hm), List.flatMap_cons, List.map_map]
      congr 1
      exact List.map_id _
    · rw [if_neg hm, List.filter_cons_of_neg (by simpa using hm)]
      rfl

theorem filter_one {l : List Int} (hn : l.Nodup) (a : Int) : l.filter (fun x => decide (x = a)) = if a ∈ l then [a] else [] := by
  induction l with
  | nil => rfl
  | cons x l ih =>
    rw [List.nodup_cons] at hn
    by_cases hx : x = a
    · subst hx
      rw [List.filter_cons_of_pos (by simp), ih hn.2, if_neg hn.1, if_pos List.mem_cons_self]
    · rw [List.filter_cons_of_neg (by simpa using hx), ih hn.2]
      by_cases hm : a ∈ l
      · rw [if_pos hm, if_pos (List.mem_cons_of_mem _ hm)]
      · rw [if_neg hm, if_neg]
        rw [List.mem_cons]
        rintro (e | e)
        · exact hx e.symm
        · exact hm e

theorem steps_pieces (sort : List (Int × Rat) → List (Int × Rat)) (cs : List (List HesRow)) (h a : Int) :
    ((cs.flatMap hesSteps).filter (fun p => decide (p.2.1 = h ∧ p.2.2 = a))).flatMap (fun p =>
      sort ((p.1.filter (fun r => decide (r.house = h))).map (fun r => (r.time, r.data)))) =
      (cs.filter (fun c => decide (h ∈ c.map HesRow.house ∧ a ∈ c.map HesRow.code))).flatMap (fun c => sort (hesPiece h c)) := by
  induction cs with
  | nil => rfl
  | cons c cs ih =>
    have hand : (hesSteps c).filter (fun p => decide (p.2.1 = h ∧ p.2.2 = a)) =
        if h ∈ c.map HesRow.house ∧ a ∈ c.map HesRow.code then [(hesScale c, h, a)] else [] := by
      have : (fun p : HesStep => decide (p.2.1 = h ∧ p.2.2 = a)) = fun p => decide (p.2.2 = a) && decide (p.2.1 = h) := by
        funext p
        rw [Bool.decide_and, Bool.and_comm]
      rw [this, ← List.filter_filter, steps_house]
      by_cases hm : h ∈ c.map HesRow.house
      · rw [if_pos hm, List.filter_map]
        have hf : ((fun p : HesStep => decide (p.2.2 = a)) ∘ fun a => (hesScale c, h, a)) = fun x => decide (x = a) := rfl
        rw [hf, filter_one (groupKeys_nodup _)]
        by_cases ha : a ∈ c.map HesRow.code
        · rw [if_pos (((groupKeys_ascending _).2 a).2 ha), if_pos ⟨hm, ha⟩]; rfl
        · rw [if_neg (fun hk => ha (((groupKeys_ascending _).2 a).1 hk)), if_neg (fun hk => ha hk.2)]; rfl
      · rw [if_neg hm, if_neg (fun hk => hm hk.1)]; rfl
    rw [List.flatMap_cons, List.filter_append, List.flatMap_append, ih, hand]
    by_cases hm : h ∈ c.map HesRow.house ∧ a ∈ c.map HesRow.code
    · rw [if_pos hm, List.filter_cons_of_pos (by simpa using hm), List.flatMap_cons, List.flatMap_cons, List.flatMap_nil, List.append_nil]
      congr 2
      unfold hesPiece hesScale
      rw [List.filter_map, List.map_map]
      rfl
    · rw [if_neg hm, List.filter_cons_of_neg (by simpa using hm)]
      rfl

/-- C123. What the conversion of HES stores, for all files: it succeeds; the houses are numbered in the order in which the chunks first have
them, ascending within a chunk; the meters of a house likewise by the appliance codes of the chunks that have the house, including codes
that only other houses have; and the table of a house and a code has, for each chunk with the house and the code, all readings of the house in
it, sorted by time, whatever their appliance. Nothing else is stored. -/
theorem C123_stored (keys : List Int → List Int) (hkeys : ∀ vs, Ascending vs (keys vs)) (sort : List (Int × Rat) → List (Int × Rat))
    (max : Option Int) (files : List (Option (List (List HesRow)))) :
    ∃ s, convertHes sort max files = (s, none) ∧
      s.houses = firstSeen ((hesRead max files).flatMap (fun c => keys (c.map HesRow.house))) ∧
      (∀ h, s.codes h = firstSeen (((hesRead max files).filter (fun c => decide (h ∈ c.map HesRow.house))).flatMap
        (fun c => keys (c.map HesRow.code)))) ∧
      (∀ i h j a, s.houses[i]? = some h → (s.codes h)[j]? = some a → s.store (meterKey (i + 1) (j + 1)) =
        some ⟨[("power", "active")], ((hesRead max files).filter (fun c => decide (h ∈ c.map HesRow.house ∧ a ∈ c.map HesRow.code))).flatMap
          (fun c => sort (hesPiece h c))⟩) ∧
      (∀ k, (∀ i h j a, s.houses[i]? = some h → (s.codes h)[j]? = some a → k ≠ meterKey (i + 1) (j + 1)) → s.store k = none) := by
  have hk : keys = groupKeys := funext (fun vs => ascending_unique (hkeys vs) (groupKeys_ascending vs))
  subst hk
  have hinv := hesFold_inv sort ((hesRead max files).flatMap hesSteps) [] ⟨[], fun _ => [], fun _ => none⟩
    ⟨rfl, fun _ => rfl, fun i h j a h1 => by simp at h1, fun _ _ => rfl⟩
  rw [List.nil_append] at hinv
  refine ⟨_, hesFiles_fold sort max files _, ?_, ?_, ?_, hinv.others⟩
  · rw [hinv.houses, steps_houses]
  · intro h
    rw [hinv.codes, steps_codes]
  · intro i h j a h1 h2
    rw [hinv.tables i h j a h1 h2, steps_pieces]

/-- C123. If every chunk has readings of one appliance only, each meter has the readings of its house and its appliance, each once. -/
theorem C123_own_partial {sort : List (Int × Rat) → List (Int × Rat)} (hs : SortsByTime sort) (max : Option Int)
    (files : List (Option (List (List HesRow)))) (hone : ∀ c ∈ hesRead max files, ∀ r ∈ c, ∀ r' ∈ c, r.code = r'.code) :
    ∃ s, convertHes sort max files = (s, none) ∧ ∀ i h j a, s.houses[i]? = some h → (s.codes h)[j]? = some a →
      ∃ rows, s.store (meterKey (i + 1) (j + 1)) = some ⟨[("power", "active")], rows⟩ ∧
        rows.Perm (((hesRead max files).flatten.filter (fun r => decide (r.house = h ∧ r.code = a))).map (fun r => (r.time, r.data * 10))) := by
  obtain ⟨s, e1, -, -, e4, -⟩ := C123_stored groupKeys groupKeys_ascending sort max files
  refine ⟨s, e1, ?_⟩
  intro i h j a h1 h2
  refine ⟨_, e4 i h j a h1 h2, ?_⟩
  generalize hesRead max files = cs at hone
  clear h1 h2 e1 e4
  induction cs with
  | nil => exact List.Perm.nil
  | cons c cs ih =>
    have ih' := ih (fun c hc => hone c (List.mem_cons_of_mem _ hc))
    have hc := hone c List.mem_cons_self
    rw [List.flatten_cons, List.filter_append, List.map_append]
    by_cases hm : h ∈ c.map HesRow.house ∧ a ∈ c.map HesRow.code
    · rw [List.filter_cons_of_pos (by simpa using hm), List.flatMap_cons]
      refine List.Perm.append ((hs.perm _).trans ?_) ih'
      unfold hesPiece
      obtain ⟨r0, hr0, ha0⟩ := List.mem_map.1 hm.2
      have : c.filter (fun r => decide (r.house = h)) = c.filter (fun r => decide (r.house = h ∧ r.code = a)) := by
        apply List.filter_congr
        intro r hr
        have : r.code = a := (hc r hr r0 hr0).trans ha0
        simp [this]
      rw [this]
    · rw [List.filter_cons_of_neg (by simpa using hm)]
      have : c.filter (fun r => decide (r.house = h ∧ r.code = a)) = [] := by
        rw [List.filter_eq_nil_iff]
        intro r hr hra
        rw [decide_eq_true_eq] at hra
        exact hm ⟨List.mem_map.2 ⟨r, hr, hra.1⟩, List.mem_map.2 ⟨r, hr, hra.2⟩⟩
      rw [this]
      exact ih'

/-- C123, negation of "a meter has the readings of its own appliance": two appliances whose codes are in the same chunks have the same table,
which has the readings of both. -/
theorem C123_copies (sort : List (Int × Rat) → List (Int × Rat)) (max : Option Int) (files : List (Option (List (List HesRow)))) :
    ∃ s, convertHes sort max files = (s, none) ∧ ∀ i h j a j' a', s.houses[i]? = some h → (s.codes h)[j]? = some a →
      (s.codes h)[j']? = some a' →
      (∀ c ∈ hesRead max files, (∃ r ∈ c, r.house = h) → ((∃ r ∈ c, r.code = a) ↔ ∃ r ∈ c, r.code = a')) →
      s.store (meterKey (i + 1) (j + 1)) = s.store (meterKey (i + 1) (j' + 1)) := by
  obtain ⟨s, e1, -, -, e4, -⟩ := C123_stored groupKeys groupKeys_ascending sort max files
  refine ⟨s, e1, ?_⟩
  intro i h j a j' a' h1 h2 h3 hsame
  rw [e4 i h j a h1 h2, e4 i h j' a' h1 h3]
  congr 3
  apply List.filter_congr
  intro c hc
  apply decide_eq_decide.2
  simp only [List.mem_map]
  constructor
  · rintro ⟨k1, k2⟩; exact ⟨k1, (hsame c hc k1).1 k2⟩
  · rintro ⟨k1, k2⟩; exact ⟨k1, (hsame c hc k1).2 k2⟩

/-- C123, negation: a house with a freezer (code 0) and a kettle (code 101): the meter of the freezer has the readings of the kettle too, and so
has that of the kettle. House 2, which has a kettle only, gets two meters. -/
theorem C123_own_counterexample :
    (convertHes id none [some [[⟨1, 0, 600, 3⟩, ⟨1, 101, 600, 100⟩, ⟨2, 101, 600, 50⟩]]]).1.store (meterKey 1 1) =
      some ⟨[("power", "active")], [(600, 30), (600, 1000)]⟩ ∧
    (convertHes id none [some [[⟨1, 0, 600, 3⟩, ⟨1, 101, 600, 100⟩, ⟨2, 101, 600, 50⟩]]]).1.store (meterKey 1 2) =
      some ⟨[("power", "active")], [(600, 30), (600, 1000)]⟩ ∧
    (convertHes id none [some [[⟨1, 0, 600, 3⟩, ⟨1, 101, 600, 100⟩, ⟨2, 101, 600, 50⟩]]]).1.store (meterKey 2 1) =
      some ⟨[("power", "active")], [(600, 500)]⟩ ∧
    (convertHes id none [some [[⟨1, 0, 600, 3⟩, ⟨1, 101, 600, 100⟩, ⟨2, 101, 600, 50⟩]]]).1.store (meterKey 2 2) =
      some ⟨[("power", "active")], [(600, 500)]⟩ := by
  decide +kernel

/-! ### The metadata -/

/-- A code of an appliance: neither mains (240, 241) nor circuits (208 to 217, 222) nor temperatures (251 to 255). -/
def hesIsAppliance (a : Int) : Bool :=
  !(decide (a = 240 ∨ a = 241) || decide (208 ≤ a ∧ a ≤ 217) || decide (a = 222) || decide (251 ≤ a ∧ a ≤ 255))

theorem hesIsAppliance_iff (a : Int) : hesIsAppliance a = true ↔ a ∉ hesMains ∧ a ∉ hesCircuits ∧ a ∉ hesTemperatures := by
  simp only [hesIsAppliance, hesMains, hesCircuits, hesTemperatures, List.mem_cons, List.not_mem_nil, or_false, Bool.not_eq_true',
    Bool.or_eq_false_iff, decide_eq_false_iff_not]
  omega

theorem hesMetadata_spec (lookup : List (Int × String × String)) (all as : List Int) (counter : String → Nat) :
    ((∃ a ∈ as.takeWhile hesIsAppliance, ∀ r ∈ lookup, r.1 ≠ a) → hesMetadata lookup all as counter = .error .indexError) ∧
    ((∀ a ∈ as.takeWhile hesIsAppliance, ∃ r ∈ lookup, r.1 = a) → ∃ l, hesMetadata lookup all as counter = .ok l ∧
      l.map HesAppliance.meter = (as.takeWhile hesIsAppliance).map (fun a => all.idxOf a + 1) ∧
      ∀ i e, l[i]? = some e → (∃ a, as[i]? = some a ∧ (a, e.originalName, e.type) ∈ lookup) ∧
        e.number = counter e.type + ((l.take (i + 1)).filter (fun x => decide (x.type = e.type))).length) := by
  induction as generalizing counter with
  | nil =>
    refine ⟨?_, ?_⟩
    · rintro ⟨a, ha, -⟩; cases ha
    · intro _; exact ⟨[], rfl, rfl, by simp⟩
  | cons a as ih =>
    by_cases hap : hesIsAppliance a = true
    · obtain ⟨n1, n2, n3⟩ := (hesIsAppliance_iff a).1 hap
      rw [List.takeWhile_cons_of_pos hap]
      unfold hesMetadata
      rw [if_neg n1, if_neg n2, if_neg n3]
      cases hf : lookup.find? (fun r => decide (r.1 = a)) with
      | none =>
        refine ⟨fun _ => rfl, fun h => ?_⟩
        obtain ⟨r, hr, hra⟩ := h a List.mem_cons_self
        have := List.find?_eq_none.1 hf r hr
        simp [hra] at this
      | some r =>
        obtain ⟨ra, name, type⟩ := r
        have hmem := List.mem_of_find?_eq_some hf
        have hra : ra = a := by simpa using List.find?_some hf
        subst hra
        obtain ⟨ih1, ih2⟩ := ih (fun t => if t = type then counter t + 1 else counter t)
        simp only
        refine ⟨?_, ?_⟩
        · rintro ⟨x, hx, hno⟩
          rcases List.mem_cons.1 hx with rfl | hx
          · exact absurd rfl (hno _ hmem)
          · rw [ih1 ⟨x, hx, hno⟩]
        · intro h
          obtain ⟨l, e1, e2, e3⟩ := ih2 (fun x hx => h x (List.mem_cons_of_mem _ hx))
          rw [e1]
          refine ⟨_, rfl, ?_, ?_⟩
          · rw [List.map_cons, List.map_cons, e2]
          · intro i e hi
            cases i with
            | zero =>
              rw [List.getElem?_cons_zero, Option.some.injEq] at hi
              subst hi
              refine ⟨⟨ra, rfl, hmem⟩, ?_⟩
              simp
            | succ i =>
              rw [List.getElem?_cons_succ] at hi
              obtain ⟨k1, k2⟩ := e3 i e hi
              refine ⟨by rw [List.getElem?_cons_succ]; exact k1, ?_⟩
              rw [List.take_succ_cons, k2]
              by_cases ht : e.type = type
              · rw [if_pos ht, List.filter_cons_of_pos (by simpa using ht.symm), List.length_cons]
                omega
              · rw [if_neg ht, List.filter_cons_of_neg (by simpa using fun h => ht h.symm)]
    · have hap' : hesIsAppliance a = false := by simpa using hap
      rw [List.takeWhile_cons_of_neg (by simp [hap'])]
      have hok : hesMetadata lookup all (a :: as) counter = .ok [] := by
        unfold hesMetadata
        by_cases n1 : a ∈ hesMains
        · rw [if_pos n1]
        · rw [if_neg n1]
          by_cases n2 : a ∈ hesCircuits
          · rw [if_pos n2]
          · rw [if_neg n2]
            by_cases n3 : a ∈ hesTemperatures
            · rw [if_pos n3]
            · exact absurd ((hesIsAppliance_iff a).2 ⟨n1, n2, n3⟩) hap
      refine ⟨?_, fun _ => ⟨[], hok, rfl, by simp⟩⟩
      rintro ⟨x, hx, -⟩; cases hx

/-- C123. The metadata of a building have the meters of the codes before the first code that is not of an appliance, numbered from 1 as in the
store, each with one appliance whose names are those of the lookup and whose number counts the appliances of its type; a code that the lookup
has not is an IndexError. -/
theorem C123_metadata (lookup : List (Int × String × String)) (codes : List Int) (hn : codes.Nodup) :
    ((∃ a ∈ codes.takeWhile hesIsAppliance, ∀ r ∈ lookup, r.1 ≠ a) → hesMetadata lookup codes codes (fun _ => 0) = .error .indexError) ∧
    ((∀ a ∈ codes.takeWhile hesIsAppliance, ∃ r ∈ lookup, r.1 = a) → ∃ l, hesMetadata lookup codes codes (fun _ => 0) = .ok l ∧
      l.map HesAppliance.meter = List.range' 1 (codes.takeWhile hesIsAppliance).length ∧
      ∀ i e, l[i]? = some e → (∃ a, codes[i]? = some a ∧ (a, e.originalName, e.type) ∈ lookup) ∧
        e.number = ((l.take (i + 1)).filter (fun x => decide (x.type = e.type))).length) := by
  obtain ⟨h1, h2⟩ := hesMetadata_spec lookup codes codes (fun _ => 0)
  refine ⟨h1, fun h => ?_⟩
  obtain ⟨l, e1, e2, e3⟩ := h2 h
  refine ⟨l, e1, ?_, fun i e hi => ?_⟩
  · rw [e2]
    apply List.ext_getElem?
    intro i
    rw [List.getElem?_map]
    have hpre : codes.takeWhile hesIsAppliance <+: codes := List.takeWhile_prefix _
    cases hi : (codes.takeWhile hesIsAppliance)[i]? with
    | none =>
      rw [List.getElem?_eq_none]
      · rfl
      · rw [List.length_range']
        exact List.getElem?_eq_none_iff.1 hi
    | some a =>
      have hlt := (List.getElem?_eq_some_iff.1 hi).1
      obtain ⟨t, ht⟩ := hpre
      have hc : codes[i]? = some a := by
        rw [← ht, List.getElem?_append_left hlt]; exact hi
      rw [List.getElem?_range' hlt, Option.map_some, get_idxOf_nodup hn hc]
      congr 1
      omega
  · obtain ⟨k1, k2⟩ := e3 i e hi
    exact ⟨k1, by rw [k2]; simp⟩

/-- C123, negation of "the mains of a house are known": no meter of mains, circuits or temperatures is ever in the metadata. -/
theorem C123_no_mains (lookup : List (Int × String × String)) (codes : List Int) (hn : codes.Nodup) (l : List HesAppliance)
    (h : hesMetadata lookup codes codes (fun _ => 0) = .ok l) (j : Nat) (a : Int) (hj : codes[j]? = some a) (ha : hesIsAppliance a = false) :
    j + 1 ∉ l.map HesAppliance.meter := by
  obtain ⟨h1, h2⟩ := C123_metadata lookup codes hn
  have hall : ∀ a ∈ codes.takeWhile hesIsAppliance, ∃ r ∈ lookup, r.1 = a := by
    intro x hx
    by_contra hno
    have := h1 ⟨x, hx, fun r hr he => hno ⟨r, hr, he⟩⟩
    rw [h] at this
    cases this
  obtain ⟨l', e1, e2, -⟩ := h2 hall
  rw [h] at e1
  cases e1
  rw [e2, List.mem_range'_1]
  rintro ⟨-, hlt⟩
  have hlt' : j < (codes.takeWhile hesIsAppliance).length := by omega
  obtain ⟨t, ht⟩ := List.takeWhile_prefix hesIsAppliance (l := codes)
  have hj' : (codes.takeWhile hesIsAppliance)[j]? = some a := by
    rw [← hj]
    conv => rhs; rw [← ht]
    rw [List.getElem?_append_left hlt']
  have := List.all_eq_true.1 (List.all_takeWhile (l := codes) (p := hesIsAppliance)) a (List.mem_of_getElem? hj')
  rw [ha] at this
  cases this

/-! ### Examples -/

example : hesRead (some 1) [some [[⟨1, 0, 600, 3⟩], [⟨1, 5, 1200, 4⟩]], none, some [[⟨2, 5, 600, 1⟩]]] =
    [[⟨1, 0, 600, 3⟩], [⟨2, 5, 600, 1⟩]] := by decide

example : ∃ s, convertHes id none [some [[⟨7, 3, 600, 3⟩], [⟨7, 5, 600, 4⟩, ⟨2, 5, 600, 1⟩]]] = (s, none) ∧
    s.houses = [7, 2] ∧ s.codes 7 = [3, 5] ∧ s.store (meterKey 1 2) = some ⟨[("power", "active")], [(600, 40)]⟩ :=
  ⟨_, rfl, by decide +kernel, by decide +kernel, by decide +kernel⟩

example : hesMetadata [(0, "upright freezer 1", "freezer"), (1, "upright freezer 2", "freezer"), (3, "x", "fan")] [0, 3, 1, 240, 2] [0, 3, 1, 240, 2]
    (fun _ => 0) = .ok [⟨"upright freezer 1", 1, "freezer", 1⟩, ⟨"x", 2, "fan", 1⟩, ⟨"upright freezer 2", 3, "freezer", 2⟩] := by
  decide +kernel

end Nilmtk
