import Verif.Model.FromList
import Verif.Props.Group
import Mathlib.Data.List.Forall2
import Mathlib.Data.List.Perm.Basic
/-!
C82: `MeterGroup.from_list`, `from_other_metergroup`, `select_top_k`.
-/
namespace Nilmtk

/-! ### Specification -/

instance : DecidableEq Ident := fun a b => decidable_of_iff _ (Ident.beq_iff a b)

/-- `m` is the first meter of the list with property `p`. -/
def FirstWith (p : Meter → Prop) (ms : List Meter) (m : Meter) : Prop :=
  ∃ pre post, ms = pre ++ m :: post ∧ p m ∧ ∀ x ∈ pre, ¬ p x

/-- The meter is a group of exactly the identifiers. -/
def GroupOf (ids : List Ident) : Meter → Prop
  | .elec _ => False
  | .group _ gs _ => ∀ i, i ∈ gs.map Meter.ident ↔ i ∈ ids

/-- The identifier asks for a meter of the group by its number: not 0 (mains) and no tuple of numbers. -/
def Numbered (id : MeterId) : Prop := ∃ i, id.inst = .one i ∧ i ≠ 0

/-- What an identifier means in a group: the meter with this identifier; the nested group of these meters, if there is one;
otherwise a new group made of what the distinct identifiers mean. -/
inductive Denotes (special : MeterId → Except Err Meter) (ms : List Meter) : Ident → Meter → Prop
  | meter (id m) : Numbered id → FirstWith (fun x => x.ident = .meter id) ms m → Denotes special ms (.meter id) m
  | special (id m) : ¬ Numbered id → special id = .ok m → Denotes special ms (.meter id) m
  | found (ids m) : FirstWith (GroupOf ids) ms m → Denotes special ms (.group ids) m
  | made (ids rs) : (∀ x ∈ ms, ¬ GroupOf ids x) → List.Forall₂ (Denotes special ms) ids.eraseDups rs →
      Denotes special ms (.group ids) (mkGroup rs)

/-- The identifier that an element of the argument stands for. -/
def GKey.ident? : GKey → Option Ident
  | .id i => some i
  | .tuple ids => some (.group ids)
  | .other => none

/-- Two meters that an identifier could not tell apart. -/
def Alike (a b : Meter) : Prop := a.ident = b.ident ∨ ∃ ids, GroupOf ids a ∧ GroupOf ids b

/-! ### Lemmas -/

theorem lookupId_iff (special : MeterId → Except Err Meter) (ms : List Meter) (id : MeterId) (m : Meter) :
    lookupId special ms id = .ok m ↔ Denotes special ms (.meter id) m := by
  have hfind : ∀ l : List Meter, findMeter id l = .ok m ↔ FirstWith (fun x => x.ident = .meter id) l m := by
    intro l
    induction l with
    | nil =>
      simp only [findMeter, reduceCtorEq, false_iff]
      rintro ⟨pre, post, h, _⟩
      cases pre <;> cases h
    | cons a l ih =>
      rw [findMeter]
      by_cases hb : Ident.beq a.ident (.meter id) = true
      · rw [if_pos hb]
        have ha := (Ident.beq_iff _ _).1 hb
        constructor
        · intro h
          cases h
          exact ⟨[], l, rfl, ha, by simp⟩
        · rintro ⟨pre, post, h, _, hpre⟩
          cases pre with
          | nil => cases h; rfl
          | cons p pre =>
            cases h
            exact absurd ha (hpre a List.mem_cons_self)
      · rw [if_neg hb, ih]
        have ha : a.ident ≠ .meter id := fun h => hb ((Ident.beq_iff _ _).2 h)
        constructor
        · rintro ⟨pre, post, rfl, hm, hpre⟩
          refine ⟨a :: pre, post, rfl, hm, ?_⟩
          intro x hx
          rcases List.mem_cons.1 hx with rfl | hx
          · exact ha
          · exact hpre x hx
        · rintro ⟨pre, post, h, hm, hpre⟩
          cases pre with
          | nil => cases h; exact absurd hm ha
          | cons p pre =>
            cases h
            exact ⟨pre, post, rfl, hm, fun x hx => hpre x (List.mem_cons_of_mem _ hx)⟩
  unfold lookupId
  cases hi : id.inst with
  | one i =>
    simp only
    by_cases h0 : i = 0
    · rw [if_pos h0]
      have hn : ¬ Numbered id := by rintro ⟨j, hj, hj0⟩; rw [hi] at hj; cases hj; exact hj0 h0
      constructor
      · intro h; exact .special id m hn h
      · intro h
        cases h with
        | meter _ _ h => exact absurd h hn
        | special _ _ _ h => exact h
    · rw [if_neg h0, hfind]
      have hn : Numbered id := ⟨i, hi, h0⟩
      constructor
      · intro h; exact .meter id m hn h
      · intro h
        cases h with
        | meter _ _ _ h => exact h
        | special _ _ h => exact absurd hn h
  | many l =>
    have hn : ¬ Numbered id := by rintro ⟨j, hj, _⟩; rw [hi] at hj; cases hj
    simp only
    constructor
    · intro h; exact .special id m hn h
    · intro h
      cases h with
      | meter _ _ h => exact absurd h hn
      | special _ _ _ h => exact h

theorem findGroup_iff (ids : List Ident) (ms : List Meter) :
    (∀ m, findGroup ids ms = .ok m ↔ FirstWith (GroupOf ids) ms m) ∧
    (findGroup ids ms = .error .keyError ↔ ∀ x ∈ ms, ¬ GroupOf ids x) ∧
    ∀ e, findGroup ids ms = .error e → e = .keyError := by
  induction ms with
  | nil =>
    refine ⟨fun m => ?_, by simp [findGroup], fun e h => by simp only [findGroup, Except.error.injEq] at h; exact h.symm⟩
    simp only [findGroup, reduceCtorEq, false_iff]
    rintro ⟨pre, post, h, _⟩
    cases pre <;> cases h
  | cons a ms ih =>
    have skip : ¬ GroupOf ids a → ∀ m, FirstWith (GroupOf ids) (a :: ms) m ↔ FirstWith (GroupOf ids) ms m := by
      intro ha m
      constructor
      · rintro ⟨pre, post, h, hm, hpre⟩
        cases pre with
        | nil => cases h; exact absurd hm ha
        | cons p pre =>
          cases h
          exact ⟨pre, post, rfl, hm, fun x hx => hpre x (List.mem_cons_of_mem _ hx)⟩
      · rintro ⟨pre, post, rfl, hm, hpre⟩
        refine ⟨a :: pre, post, rfl, hm, ?_⟩
        intro x hx
        rcases List.mem_cons.1 hx with rfl | hx
        · exact ha
        · exact hpre x hx
    cases a with
    | elec e =>
      simp only [findGroup]
      refine ⟨fun m => by rw [ih.1, skip (by simp [GroupOf])], ?_, ih.2.2⟩
      rw [ih.2.1]
      constructor
      · intro h x hx
        rcases List.mem_cons.1 hx with rfl | hx
        · simp [GroupOf]
        · exact h x hx
      · intro h x hx; exact h x (List.mem_cons_of_mem _ hx)
    | group n gs ds =>
      simp only [findGroup]
      by_cases hb : identSetEq (Meter.idents gs) ids = true
      · rw [if_pos hb]
        have hg : GroupOf ids (.group n gs ds) := by rw [identSetEq_iff, idents_eq] at hb; exact hb
        refine ⟨fun m => ?_, ?_, by simp⟩
        · constructor
          · intro h; cases h; exact ⟨[], ms, rfl, hg, by simp⟩
          · rintro ⟨pre, post, h, _, hpre⟩
            cases pre with
            | nil => cases h; rfl
            | cons p pre => cases h; exact absurd hg (hpre _ List.mem_cons_self)
        · simp only [reduceCtorEq, false_iff]
          exact fun h => h _ List.mem_cons_self hg
      · rw [if_neg hb]
        have hg : ¬ GroupOf ids (.group n gs ds) := by
          intro h; apply hb; rw [identSetEq_iff, idents_eq]; exact h
        refine ⟨fun m => by rw [ih.1, skip hg], ?_, ih.2.2⟩
        rw [ih.2.1]
        constructor
        · intro h x hx
          rcases List.mem_cons.1 hx with rfl | hx
          · exact hg
          · exact h x hx
        · intro h x hx; exact h x (List.mem_cons_of_mem _ hx)

theorem seen_any (seen : List Ident) (i : Ident) : seen.any (Ident.beq i) = true ↔ i ∈ seen := by
  rw [List.any_eq_true]
  constructor
  · rintro ⟨j, hj, h⟩; rw [(Ident.beq_iff _ _).1 h]; exact hj
  · intro h; exact ⟨i, h, (Ident.beq_iff _ _).2 rfl⟩

theorem assembleAll_iff (special : MeterId → Except Err Meter) (ms : List Meter) (is seen : List Ident) (rs : List Meter) :
    assembleAll special ms seen is = .ok rs ↔
      List.Forall₂ (fun i m => assemble special ms i = .ok m) ((is.filter (fun i => i ∉ seen)).eraseDups) rs := by
  induction is generalizing seen rs with
  | nil =>
    simp only [assembleAll, List.filter_nil, List.eraseDups_nil, List.forall₂_nil_left_iff, Except.ok.injEq]
    exact eq_comm
  | cons i is ih =>
    rw [assembleAll]
    by_cases hs : i ∈ seen
    · rw [if_pos ((seen_any _ _).2 hs), ih, List.filter_cons_of_neg (by simpa using hs)]
    · rw [if_neg (fun h => hs ((seen_any _ _).1 h)), List.filter_cons_of_pos (by simpa using hs), List.eraseDups_cons,
        List.filter_filter]
      have hf : (is.filter (fun b => !b == i && decide (b ∉ seen))) = is.filter (fun b => b ∉ i :: seen) := by
        apply List.filter_congr
        intro b _
        by_cases h1 : b = i <;> by_cases h2 : b ∈ seen <;> simp [h1, h2]
      rw [hf, List.forall₂_cons_left_iff]
      cases ha : assemble special ms i with
      | error e =>
        simp only [reduceCtorEq, false_and, exists_false]
      | ok m =>
        cases hr : assembleAll special ms (i :: seen) is with
        | error e =>
          simp only [reduceCtorEq, false_iff]
          rintro ⟨b, u, _, hu, _⟩
          rw [← ih, hr] at hu
          cases hu
        | ok r =>
          simp only [Except.ok.injEq]
          constructor
          · rintro rfl
            exact ⟨m, r, rfl, (ih _ _).1 hr, rfl⟩
          · rintro ⟨b, u, rfl, hu, rfl⟩
            rw [← ih, hr] at hu
            cases hu
            rfl

theorem forall2_congr_mem {α β : Type} {R S : α → β → Prop} {l : List α} {r : List β} (h : ∀ a ∈ l, ∀ b, R a b ↔ S a b) :
    List.Forall₂ R l r ↔ List.Forall₂ S l r := by
  induction l generalizing r with
  | nil => simp
  | cons a l ih =>
    rw [List.forall₂_cons_left_iff, List.forall₂_cons_left_iff]
    simp only [h a List.mem_cons_self, ih (fun x hx => h x (List.mem_cons_of_mem _ hx))]

mutual
theorem assemble_iff (special : MeterId → Except Err Meter) (ms : List Meter) : ∀ (i : Ident) (m : Meter),
    assemble special ms i = .ok m ↔ Denotes special ms i m
  | .meter id, m => by rw [assemble]; exact lookupId_iff special ms id m
  | .group ids, m => by
    obtain ⟨f1, f2, f3⟩ := findGroup_iff ids ms
    have hall := assemble_iffs special ms ids
    rw [assemble]
    cases hf : findGroup ids ms with
    | ok g =>
      simp only [Except.ok.injEq]
      constructor
      · rintro rfl
        exact .found ids _ ((f1 g).1 hf)
      · intro h
        cases h with
        | found _ _ h => rw [← f1, hf] at h; cases h; rfl
        | made _ _ h => rw [← f2, hf] at h; cases h
    | error e =>
      have he := f3 e hf
      subst he
      simp only
      have hno := f2.1 hf
      have hcongr : ∀ rs, assembleAll special ms [] ids = .ok rs ↔ List.Forall₂ (Denotes special ms) ids.eraseDups rs := by
        intro rs
        rw [assembleAll_iff, List.filter_eq_self.2 (by simp)]
        exact forall2_congr_mem (fun a ha b => hall a (List.mem_eraseDups.1 ha) b)
      cases hr : assembleAll special ms [] ids with
      | error e =>
        simp only [reduceCtorEq, false_iff]
        intro h
        cases h with
        | found _ _ h => rw [← f1, hf] at h; cases h
        | made _ rs _ h => rw [← hcongr, hr] at h; cases h
      | ok r =>
        simp only [Except.ok.injEq]
        constructor
        · rintro rfl
          exact .made ids r hno ((hcongr r).1 hr)
        · intro h
          cases h with
          | found _ _ h => rw [← f1, hf] at h; cases h
          | made _ rs _ h => rw [← hcongr, hr] at h; cases h; rfl
theorem assemble_iffs (special : MeterId → Except Err Meter) (ms : List Meter) : ∀ (is : List Ident), ∀ i ∈ is, ∀ m,
    assemble special ms i = .ok m ↔ Denotes special ms i m
  | [], i, h, m => by cases h
  | j :: is, i, h, m => by
    have hj := assemble_iff special ms j
    have ht := assemble_iffs special ms is
    rcases List.mem_cons.1 h with h | h
    · rw [h]; exact hj m
    · exact ht i h m
end

theorem GKey.beq_iff (a b : GKey) : GKey.beq a b = true ↔ a = b := by
  cases a <;> cases b <;> simp [GKey.beq, Ident.beq_iff, Ident.beqs_iff]

instance : DecidableEq GKey := fun a b => decidable_of_iff _ (GKey.beq_iff a b)

theorem seenKey_any (seen : List GKey) (i : GKey) : seen.any (GKey.beq i) = true ↔ i ∈ seen := by
  rw [List.any_eq_true]
  constructor
  · rintro ⟨j, hj, h⟩; rw [(GKey.beq_iff _ _).1 h]; exact hj
  · intro h; exact ⟨i, h, (GKey.beq_iff _ _).2 rfl⟩

theorem fromLoop_iff (special : MeterId → Except Err Meter) (ms : List Meter) (ks seen : List GKey) (rs : List Meter) :
    fromLoop special ms seen ks = .ok rs ↔
      List.Forall₂ (fun k m => fromKey special ms k = .ok m) ((ks.filter (fun i => i ∉ seen)).eraseDups) rs := by
  induction ks generalizing seen rs with
  | nil =>
    simp only [fromLoop, List.filter_nil, List.eraseDups_nil, List.forall₂_nil_left_iff, Except.ok.injEq]
    exact eq_comm
  | cons i is ih =>
    rw [fromLoop]
    by_cases hs : i ∈ seen
    · rw [if_pos ((seenKey_any _ _).2 hs), ih, List.filter_cons_of_neg (by simpa using hs)]
    · rw [if_neg (fun h => hs ((seenKey_any _ _).1 h)), List.filter_cons_of_pos (by simpa using hs), List.eraseDups_cons,
        List.filter_filter]
      have hf : (is.filter (fun b => !b == i && decide (b ∉ seen))) = is.filter (fun b => b ∉ i :: seen) := by
        apply List.filter_congr
        intro b _
        by_cases h1 : b = i <;> by_cases h2 : b ∈ seen <;> simp [h1, h2]
      rw [hf, List.forall₂_cons_left_iff]
      cases ha : fromKey special ms i with
      | error e =>
        simp only [reduceCtorEq, false_and, exists_false]
      | ok m =>
        cases hr : fromLoop special ms (i :: seen) is with
        | error e =>
          simp only [reduceCtorEq, false_iff]
          rintro ⟨b, u, _, hu, _⟩
          rw [← ih, hr] at hu
          cases hu
        | ok r =>
          simp only [Except.ok.injEq]
          constructor
          · rintro rfl
            exact ⟨m, r, rfl, (ih _ _).1 hr, rfl⟩
          · rintro ⟨b, u, rfl, hu, rfl⟩
            rw [← ih, hr] at hu
            cases hu
            rfl

theorem fromKey_iff (special : MeterId → Except Err Meter) (ms : List Meter) (k : GKey) (m : Meter) :
    fromKey special ms k = .ok m ↔ ∃ i, k.ident? = some i ∧ Denotes special ms i m := by
  cases k with
  | id i => simp [fromKey, GKey.ident?, assemble_iff]
  | tuple ids => simp [fromKey, GKey.ident?, assemble_iff]
  | other => simp [fromKey, GKey.ident?]

/-! ### C82 -/

/-- C82. `from_list` gives a group with one meter for each distinct element, in order of first occurrence: what the
identifier means in the group. It succeeds exactly if every element means something. -/
theorem C82_from_list (special : MeterId → Except Err Meter) (ms : List Meter) (keys : List GKey) (g : Meter) :
    fromList special ms keys = .ok g ↔ ∃ rs, g = mkGroup rs ∧
      List.Forall₂ (fun k m => ∃ i, k.ident? = some i ∧ Denotes special ms i m) keys.eraseDups rs := by
  have hl := fromLoop_iff special ms keys []
  rw [List.filter_eq_self.2 (by simp)] at hl
  simp only [fromKey_iff] at hl
  unfold fromList
  cases hr : fromLoop special ms [] keys with
  | error e =>
    simp only [reduceCtorEq, false_iff]
    rintro ⟨rs, _, h⟩
    rw [← hl, hr] at h; cases h
  | ok r =>
    simp only [Except.ok.injEq]
    constructor
    · rintro rfl; exact ⟨r, rfl, (hl r).1 hr⟩
    · rintro ⟨rs, rfl, h⟩
      rw [← hl, hr] at h; cases h; rfl

/-- C82. An identifier of a numbered meter means a meter of the group that has this identifier; a group identifier with an
existing nested group means that group. -/
theorem C82_existing (special : MeterId → Except Err Meter) (ms : List Meter) (i : Ident) (m : Meter)
    (h : Denotes special ms i m) :
    (∀ id, i = .meter id → Numbered id → m ∈ ms ∧ m.ident = i) ∧
    (∀ ids, i = .group ids → (∃ x ∈ ms, GroupOf ids x) → m ∈ ms ∧ GroupOf ids m) := by
  cases h with
  | meter id _ hn hf =>
    refine ⟨?_, by simp⟩
    intro id' he _
    cases he
    obtain ⟨pre, post, rfl, hm, _⟩ := hf
    exact ⟨by simp, hm⟩
  | special id _ hn hf =>
    refine ⟨?_, by simp⟩
    intro id' he hn'
    cases he
    exact absurd hn' hn
  | found ids _ hf =>
    refine ⟨by simp, ?_⟩
    intro ids' he _
    cases he
    obtain ⟨pre, post, rfl, hm, _⟩ := hf
    exact ⟨by simp, hm⟩
  | made ids rs hno hf =>
    refine ⟨by simp, ?_⟩
    intro ids' he hex
    cases he
    obtain ⟨x, hx, hg⟩ := hex
    exact absurd hg (hno x hx)

theorem eraseDups_of_nodup {α : Type} [DecidableEq α] (l : List α) (h : l.Nodup) : l.eraseDups = l := by
  induction l with
  | nil => rfl
  | cons a l ih =>
    rw [List.nodup_cons] at h
    rw [List.eraseDups_cons, List.filter_eq_self.2, ih h.2]
    intro b hb
    have : b ≠ a := fun he => h.1 (he ▸ hb)
    simpa using this

theorem groupOf_self (n : String) (gs ds : List Meter) : GroupOf (gs.map Meter.ident) (.group n gs ds) := fun _ => Iff.rfl

/-- The identifier of a meter means that meter, in a group whose meters can be told apart. -/
theorem denotes_self (special : MeterId → Except Err Meter) (ms : List Meter) (hsep : ms.Pairwise (fun a b => ¬ Alike a b))
    (m : Meter) (hm : m ∈ ms) (hnum : ∀ id, m.ident = .meter id → Numbered id) : Denotes special ms m.ident m := by
  obtain ⟨pre, post, rfl⟩ := List.append_of_mem hm
  have hpre : ∀ x ∈ pre, ¬ Alike x m := fun x hx => (List.pairwise_append.1 hsep).2.2 x hx m List.mem_cons_self
  cases m with
  | elec e =>
    simp only [Meter.ident] at hnum ⊢
    refine .meter _ _ (hnum _ rfl) ⟨pre, post, rfl, rfl, ?_⟩
    intro x hx he
    exact hpre x hx (Or.inl he)
  | group n gs ds =>
    simp only [Meter.ident, idents_eq]
    refine .found _ _ ⟨pre, post, rfl, groupOf_self n gs ds, ?_⟩
    intro x hx hg
    exact hpre x hx (Or.inr ⟨_, hg, groupOf_self n gs ds⟩)

theorem idents_nodup (ms : List Meter) (hsep : ms.Pairwise (fun a b => ¬ Alike a b)) : (ms.map Meter.ident).Nodup := by
  rw [List.Nodup, List.pairwise_map]
  exact hsep.imp (fun h he => h (Or.inl he))

theorem fromLoop_self (special : MeterId → Except Err Meter) (ms l : List Meter) (hsep : ms.Pairwise (fun a b => ¬ Alike a b))
    (hnum : ∀ m ∈ ms, ∀ id, m.ident = .meter id → Numbered id) (hl : ∀ m ∈ l, m ∈ ms) (hnd : (l.map Meter.ident).Nodup) :
    fromLoop special ms [] (l.map (fun m => GKey.id m.ident)) = .ok l := by
  rw [fromLoop_iff, List.filter_eq_self.2 (by simp), eraseDups_of_nodup]
  · clear hnd
    induction l with
    | nil => exact .nil
    | cons m l ih =>
      refine .cons ?_ (ih (fun x hx => hl x (List.mem_cons_of_mem _ hx)))
      rw [fromKey_iff]
      have hm := hl m List.mem_cons_self
      exact ⟨_, rfl, denotes_self special ms hsep m hm (hnum m hm)⟩
  · have : l.map (fun m => GKey.id m.ident) = (l.map Meter.ident).map GKey.id := by rw [List.map_map]; rfl
    rw [this]
    exact hnd.map (fun a b h => by cases h; rfl)

/-- C82. A group is assembled again from its own identifier: the same meters in the same order. -/
theorem C82_roundtrip (special : MeterId → Except Err Meter) (ms : List Meter) (hsep : ms.Pairwise (fun a b => ¬ Alike a b))
    (hnum : ∀ m ∈ ms, ∀ id, m.ident = .meter id → Numbered id) :
    fromList special ms (ms.map (fun m => GKey.id m.ident)) = .ok (mkGroup ms) := by
  unfold fromList
  rw [fromLoop_self special ms ms hsep hnum (fun m h => h) (idents_nodup ms hsep)]

/-- `a` may stand before `b` in the sorted series: NaNs are last. -/
def RankBefore (asc : Bool) : Option Rat → Option Rat → Prop
  | some x, some y => if asc then x ≤ y else y ≤ x
  | none, some _ => False
  | _, none => True

/-- C82. `select_top_k` selects `k` of the meters (or all, if there are fewer), none of which ranks after a meter left out,
each once; with `group_remainder` the meters left out are in one nested group named `others`. -/
theorem C82_top_k (special : MeterId → Except Err Meter) (ms : List Meter) (hsep : ms.Pairwise (fun a b => ¬ Alike a b))
    (hnum : ∀ m ∈ ms, ∀ id, m.ident = .meter id → Numbered id) (val : Meter → Option Rat) (asc : Bool)
    (sorted : List (Ident × Option Rat)) (hperm : sorted.Perm (ms.map (fun m => (m.ident, val m))))
    (hsorted : sorted.Pairwise (fun a b => RankBefore asc a.2 b.2)) (k : Nat) (rem : Bool) :
    ∃ top rest, selectTopK special ms sorted k rem =
        .ok (mkGroup (top ++ if rem then [.group "others" rest []] else [])) ∧
      (top ++ rest).Perm ms ∧ top.length = min k ms.length ∧
      (∀ t ∈ top, ∀ r ∈ rest, RankBefore asc (val t) (val r)) ∧
      (top ++ rest).Pairwise (fun a b => RankBefore asc (val a) (val b)) := by
  -- the meters in the order of the series
  obtain ⟨l, hl, hlm⟩ : ∃ l : List Meter, l.Perm ms ∧ sorted = l.map (fun m => (m.ident, val m)) := by
    clear hsorted hsep hnum
    induction ms generalizing sorted with
    | nil => exact ⟨[], .refl _, by simpa using hperm⟩
    | cons m ms ih =>
      have hmem : (m.ident, val m) ∈ sorted := hperm.mem_iff.2 (by simp)
      obtain ⟨a, b, rfl⟩ := List.append_of_mem hmem
      have h2 : (a ++ b).Perm (ms.map (fun m => (m.ident, val m))) := by
        have := List.perm_middle.symm.trans hperm
        rw [List.map_cons] at this
        exact (List.perm_cons _).1 this
      obtain ⟨l, hl, he⟩ := ih _ h2
      refine ⟨l.take a.length ++ m :: l.drop a.length, ?_, ?_⟩
      · refine List.perm_middle.trans ((List.perm_cons _).2 ?_)
        rw [List.take_append_drop]; exact hl
      · rw [List.map_append, List.map_cons, List.map_take, List.map_drop, ← he]
        simp
  subst hlm
  have hndl : (l.map Meter.ident).Nodup := ((hl.map _).nodup_iff).2 (idents_nodup ms hsep)
  have hpw : l.Pairwise (fun a b => RankBefore asc (val a) (val b)) := by
    rw [List.pairwise_map] at hsorted
    exact hsorted
  refine ⟨l.take k, l.drop k, ?_, by rw [List.take_append_drop]; exact hl, ?_, ?_, by rw [List.take_append_drop]; exact hpw⟩
  · unfold selectTopK
    have e1 : (pyTake (k : Int) (l.map (fun m => (m.ident, val m)))).map (fun p => GKey.id p.1) =
        (l.take k).map (fun m => GKey.id m.ident) := by
      unfold pyTake
      rw [if_pos (by omega), Int.toNat_natCast, ← List.map_take, List.map_map]
      rfl
    have e2 : (pyDrop (k : Int) (l.map (fun m => (m.ident, val m)))).map (fun p => GKey.id p.1) =
        (l.drop k).map (fun m => GKey.id m.ident) := by
      unfold pyDrop
      rw [if_pos (by omega), Int.toNat_natCast, ← List.map_drop, List.map_map]
      rfl
    rw [e1, e2, fromLoop_self special ms (l.take k) hsep hnum (fun m h => hl.mem_iff.1 (List.mem_of_mem_take h))
      (hndl.sublist ((List.take_sublist k l).map _)),
      fromLoop_self special ms (l.drop k) hsep hnum (fun m h => hl.mem_iff.1 (List.mem_of_mem_drop h))
      (hndl.sublist ((List.drop_sublist k l).map _))]
    cases rem <;> simp
  · rw [List.length_take, hl.length_eq]
  · have := hpw
    rw [← List.take_append_drop k l, List.pairwise_append] at this
    exact this.2.2

/-- C82. A negative `k` leaves out the last `-k` meters of the ranking. -/
theorem C82_negative_k (special : MeterId → Except Err Meter) (ms : List Meter) (sorted : List (Ident × Option Rat))
    (k : Nat) (rem : Bool) (hk : 0 < k) :
    selectTopK special ms sorted (-(k : Int)) rem = selectTopK special ms sorted ((sorted.length - k : Nat) : Int) rem := by
  unfold selectTopK pyTake pyDrop
  have h1 : ¬ (0 : Int) ≤ -(k : Int) := by omega
  have h2 : (0 : Int) ≤ ((sorted.length - k : Nat) : Int) := by omega
  simp only [if_neg h1, if_pos h2, Int.natAbs_neg, Int.natAbs_natCast, Int.toNat_natCast]

theorem otherKeys_iff (ds : String) (ids : List Ident) (ks : List GKey) (h : otherKeys ds ids = .ok ks) :
    List.Forall₂ (fun i k => ∃ id, i = .meter id ∧
      match id.inst with
      | .one n => k = GKey.id (.meter ⟨.one n, id.building, ds⟩)
      | .many l => k = GKey.tuple (l.map (fun n => Ident.meter ⟨.one n, id.building, ds⟩))) ids ks := by
  induction ids generalizing ks with
  | nil => simp only [otherKeys, Except.ok.injEq] at h; subst h; exact .nil
  | cons i ids ih =>
    cases i with
    | group _ => simp [otherKeys] at h
    | meter id =>
      simp only [otherKeys] at h
      cases hk : otherKeys ds ids with
      | error e => rw [hk] at h; cases h
      | ok r =>
        rw [hk] at h
        simp only at h
        cases hi : id.inst with
        | one n =>
          rw [hi] at h
          simp only [Except.ok.injEq] at h
          subst h
          refine .cons ⟨id, rfl, ?_⟩ (ih r hk)
          rw [hi]
        | many l =>
          rw [hi] at h
          simp only [Except.ok.injEq] at h
          subst h
          refine .cons ⟨id, rfl, ?_⟩ (ih r hk)
          rw [hi]

theorem forall2_mem_left {α β : Type} {R : α → β → Prop} {l : List α} {r : List β} (h : List.Forall₂ R l r) {a : α}
    (ha : a ∈ l) : ∃ b ∈ r, R a b := by
  induction h with
  | nil => cases ha
  | cons hab _ ih =>
    rcases List.mem_cons.1 ha with rfl | ha
    · exact ⟨_, List.mem_cons_self, hab⟩
    · obtain ⟨b, hb, h⟩ := ih ha
      exact ⟨b, List.mem_cons_of_mem _ hb, h⟩

/-- C82. `from_other_metergroup` never gives the meters it is asked for: if it returns, the group is empty, and it raises as
soon as the other group has a meter (with an instance) or a nested group. -/
theorem C82_from_other_counterexample (ids : List Ident) (ds : String) :
    (∀ g, fromOther ids ds = .ok g → g = mkGroup []) ∧
    ((∃ i ∈ ids, ∀ id, i = .meter id → id.inst ≠ .many []) → ∃ e, fromOther ids ds = .error e) := by
  constructor
  · intro g h
    unfold fromOther at h
    split at h
    · cases h
    · split at h
      · cases h
      · cases h; rfl
  · rintro ⟨i, hi, hne⟩
    cases hf : fromOther ids ds with
    | error e => exact ⟨e, rfl⟩
    | ok g =>
      exfalso
      unfold fromOther at hf
      cases hk : otherKeys ds ids with
      | error e => rw [hk] at hf; cases hf
      | ok ks =>
        rw [hk] at hf
        simp only at hf
        cases hl : fromList (fun _ => .error .keyError) [] ks with
        | error e => rw [hl] at hf; cases hf
        | ok g' =>
          obtain ⟨rs, _, hrs⟩ := (C82_from_list _ _ _ _).1 hl
          obtain ⟨k, hkm, id, rfl, hm⟩ := forall2_mem_left (otherKeys_iff ds ids ks hk) hi
          obtain ⟨m, _, j, hj, hd⟩ := forall2_mem_left hrs (List.mem_eraseDups.2 hkm)
          have hnone : ∀ j m, Denotes (fun _ => .error .keyError) [] (.meter j) m → False := by
            intro j m hd
            cases hd with
            | meter _ _ _ hf =>
              obtain ⟨pre, post, h, _⟩ := hf
              cases pre <;> cases h
            | special _ _ _ h => cases h
          cases hin : id.inst with
          | one n =>
            rw [hin] at hm
            simp only at hm
            subst hm
            simp only [GKey.ident?, Option.some.injEq] at hj
            subst hj
            exact hnone _ _ hd
          | many l =>
            rw [hin] at hm
            simp only at hm
            subst hm
            simp only [GKey.ident?, Option.some.injEq] at hj
            subst hj
            have hlne : l ≠ [] := fun h => hne id rfl (by rw [hin, h])
            obtain ⟨n, hn⟩ := List.exists_mem_of_ne_nil _ hlne
            cases hd with
            | found _ _ hf =>
              obtain ⟨pre, post, h, _⟩ := hf
              cases pre <;> cases h
            | made _ rs' _ hf =>
              obtain ⟨m', _, hm'⟩ := forall2_mem_left hf
                (List.mem_eraseDups.2 (List.mem_map.2 ⟨n, hn, rfl⟩))
              exact hnone _ _ hm'

mutual
theorem assemble_error (special : MeterId → Except Err Meter) (ms : List Meter) : ∀ (i : Ident) (e : Err),
    assemble special ms i = .error e → e = .keyError ∨ ∃ id, ¬ Numbered id ∧ special id = .error e
  | .meter id, e, h => by
    rw [assemble, lookupId] at h
    cases hi : id.inst with
    | one n =>
      rw [hi] at h
      simp only at h
      split at h
      · rename_i h0
        exact Or.inr ⟨id, by rintro ⟨j, hj, hj0⟩; rw [hi] at hj; cases hj; exact hj0 h0, h⟩
      · exact Or.inl (findMeter_error h).1
    | many l =>
      rw [hi] at h
      exact Or.inr ⟨id, (by rintro ⟨j, hj, _⟩; rw [hi] at hj; cases hj), h⟩
  | .group ids, e, h => by
    have hall := assemble_errors special ms ids []
    rw [assemble] at h
    cases hf : findGroup ids ms with
    | ok g => rw [hf] at h; cases h
    | error e' =>
      have he := (findGroup_iff ids ms).2.2 e' hf
      subst he
      rw [hf] at h
      simp only at h
      cases hr : assembleAll special ms [] ids with
      | ok r => rw [hr] at h; cases h
      | error e'' =>
        rw [hr] at h
        cases h
        exact hall _ hr
theorem assemble_errors (special : MeterId → Except Err Meter) (ms : List Meter) : ∀ (is seen : List Ident) (e : Err),
    assembleAll special ms seen is = .error e → e = .keyError ∨ ∃ id, ¬ Numbered id ∧ special id = .error e
  | [], seen, e, h => by simp [assembleAll] at h
  | i :: is, seen, e, h => by
    have hi := assemble_error special ms i
    have h1 := assemble_errors special ms is
    rw [assembleAll] at h
    split at h
    · exact h1 seen e h
    · cases ha : assemble special ms i with
      | error e' => rw [ha] at h; cases h; exact hi _ ha
      | ok m =>
        rw [ha] at h
        simp only at h
        cases hr : assembleAll special ms (i :: seen) is with
        | error e' => rw [hr] at h; cases h; exact h1 _ _ hr
        | ok r => rw [hr] at h; cases h
end

/-- C82. `from_list` raises `KeyError` for an unknown identifier, `TypeError` for what is no identifier, or what the look-up
of mains raises. -/
theorem C82_which_error (special : MeterId → Except Err Meter) (ms : List Meter) (keys : List GKey) (e : Err)
    (h : fromList special ms keys = .error e) :
    e = .keyError ∨ (e = .typeError ∧ GKey.other ∈ keys) ∨ ∃ id, ¬ Numbered id ∧ special id = .error e := by
  unfold fromList at h
  cases hr : fromLoop special ms [] keys with
  | ok r => rw [hr] at h; cases h
  | error e' =>
    rw [hr] at h
    cases h
    generalize ([] : List GKey) = seen at hr
    induction keys generalizing seen with
    | nil => simp [fromLoop] at hr
    | cons k ks ih =>
      have up : (e = .keyError ∨ (e = .typeError ∧ GKey.other ∈ ks) ∨ ∃ id, ¬ Numbered id ∧ special id = .error e) →
          (e = .keyError ∨ (e = .typeError ∧ GKey.other ∈ k :: ks) ∨ ∃ id, ¬ Numbered id ∧ special id = .error e) := by
        rintro (h | ⟨h1, h2⟩ | h)
        · exact Or.inl h
        · exact Or.inr (Or.inl ⟨h1, List.mem_cons_of_mem _ h2⟩)
        · exact Or.inr (Or.inr h)
      rw [fromLoop] at hr
      split at hr
      · exact up (ih seen hr)
      · cases ha : fromKey special ms k with
        | error e' =>
          rw [ha] at hr
          cases hr
          cases k with
          | id i =>
            rcases assemble_error special ms i _ ha with h | h
            · exact Or.inl h
            · exact Or.inr (Or.inr h)
          | tuple ids =>
            rcases assemble_error special ms _ _ ha with h | h
            · exact Or.inl h
            · exact Or.inr (Or.inr h)
          | other =>
            simp only [fromKey, Except.error.injEq] at ha
            exact Or.inr (Or.inl ⟨ha.symm, List.mem_cons_self⟩)
        | ok m =>
          rw [ha] at hr
          simp only at hr
          cases hl : fromLoop special ms (k :: seen) ks with
          | error e' => rw [hl] at hr; cases hr; exact up (ih _ hl)
          | ok r => rw [hl] at hr; cases hr

/-- C82. When `from_list` raises, some element means nothing in the group. -/
theorem C82_from_list_error (special : MeterId → Except Err Meter) (ms : List Meter) (keys : List GKey) (e : Err)
    (h : fromList special ms keys = .error e) :
    ∃ k ∈ keys, ∀ i, k.ident? = some i → ∀ m, ¬ Denotes special ms i m := by
  by_contra hn
  push Not at hn
  have hex : ∀ l : List GKey, (∀ k ∈ l, k ∈ keys) →
      ∃ rs, List.Forall₂ (fun k m => ∃ i, k.ident? = some i ∧ Denotes special ms i m) l rs := by
    intro l
    induction l with
    | nil => intro _; exact ⟨[], .nil⟩
    | cons k l ih =>
      intro hl
      obtain ⟨rs, hrs⟩ := ih (fun x hx => hl x (List.mem_cons_of_mem _ hx))
      obtain ⟨i, hi, m, hm⟩ := hn k (hl k List.mem_cons_self)
      exact ⟨m :: rs, .cons ⟨i, hi, hm⟩ hrs⟩
  obtain ⟨rs, hrs⟩ := hex keys.eraseDups (fun k hk => List.mem_eraseDups.1 hk)
  have := (C82_from_list special ms keys (mkGroup rs)).2 ⟨rs, rfl, hrs⟩
  rw [h] at this
  cases this

/-! ### Example -/

/-- A numbered meter, and its identifier. -/
def listMeter (i : Int) : Meter := .elec ⟨⟨.one i, 1, "REDD"⟩, false, ⟨none, none, true, false, false⟩⟩
def listId (i : Int) : Ident := .meter ⟨.one i, 1, "REDD"⟩

/-- Meters 1 and 2 and a nested group of meters 3 and 4. -/
def listGroup : List Meter := [listMeter 1, listMeter 2, .group "" [listMeter 3, listMeter 4] []]

example : fromList (fun _ => .error .keyError) listGroup
    [.id (listId 2), .id (listId 2), .id (.group [listId 1, listId 2]), .tuple [listId 4, listId 3]] =
    .ok (mkGroup [listMeter 2, mkGroup [listMeter 1, listMeter 2], .group "" [listMeter 3, listMeter 4] []]) := by rfl

/-- The meters of the group can be told apart, and are numbered. -/
theorem listGroup_ok : listGroup.Pairwise (fun a b => ¬ Alike a b) ∧
    ∀ m ∈ listGroup, ∀ id, m.ident = .meter id → Numbered id := by
  refine ⟨?_, ?_⟩
  · simp [listGroup, listMeter, Alike, GroupOf, Meter.ident]
  · intro m hm id he
    simp only [listGroup, listMeter, List.mem_cons, List.not_mem_nil, or_false] at hm
    rcases hm with rfl | rfl | rfl
    · simp only [Meter.ident, Ident.meter.injEq] at he; subst he; exact ⟨1, rfl, by omega⟩
    · simp only [Meter.ident, Ident.meter.injEq] at he; subst he; exact ⟨2, rfl, by omega⟩
    · simp [Meter.ident] at he

example : fromList (fun _ => .error .keyError) listGroup (listGroup.map (fun m => GKey.id m.ident)) = .ok (mkGroup listGroup) :=
  C82_roundtrip _ _ listGroup_ok.1 listGroup_ok.2

example : selectTopK (fun _ => .error .keyError) [listMeter 1, listMeter 2, listMeter 3]
    [(listId 3, some (1/2)), (listId 1, some (1/3)), (listId 2, none)] 1 true =
    .ok (mkGroup [listMeter 3, .group "others" [listMeter 1, listMeter 2] []]) := by rfl

/-- C82. Two identifiers of the same nested group, with its meters in different orders, give the group twice. -/
theorem C82_twice_counterexample :
    fromList (fun _ => .error .keyError) listGroup [.id (.group [listId 3, listId 4]), .id (.group [listId 4, listId 3])] =
    .ok (mkGroup [.group "" [listMeter 3, listMeter 4] [], .group "" [listMeter 3, listMeter 4] []]) := by rfl

/-- C82. A meter that is only in a nested group is not found. -/
theorem C82_nested_counterexample :
    fromList (fun _ => .error .keyError) listGroup [.id (listId 3)] = .error .keyError := by rfl

end Nilmtk
