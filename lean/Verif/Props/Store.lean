import Verif.Model.Store
import Verif.Props.Convert
/-!
C93: an HDF store gives back what was stored.

The specification says, for one path, what every call does to what is seen there: nothing (no such node), or a group with a
table and metadata, each of which may be missing. It does not mention the tree.
-/
namespace Nilmtk
open TF

/-! ### Specification -/

/-- What is seen at a path: `none` if there is no node, otherwise its table and its metadata. -/
abbrev Seen (M α : Type) := Option (Option (List (Row α)) × Option M)

/-- What is seen at the path `k` after a call, when `s` was seen before. -/
def seenAfter {M α : Type} (k : List Str) (s : Seen M α) : HCall M α → Seen M α
  | .put key df =>
    let p := hdfComponents key
    if df = [] ∨ p = [] then s
    else if k = p then some (some df, none)
    else if p <+: k then none
    else if k <+: p then some (s.getD (none, none))
    else s
  | .append key df =>
    let p := hdfComponents key
    if df = [] ∨ p = [] then s
    else if k = p then some (some ((s.bind Prod.fst).getD [] ++ df), s.bind Prod.snd)
    else if k <+: p then some (s.getD (none, none))
    else s
  | .remove key =>
    let p := hdfComponents key
    if p ≠ [] ∧ p <+: k then none else s
  | .saveMetadata key m =>
    if k = hdfComponents key then s.map (fun c => (c.1, some m)) else s

/-- What is seen at a path of the file. -/
def HGroup.seen {M α : Type} (g : HGroup M α) (k : List Str) : Seen M α :=
  (g.find k).map (fun n => (n.table, n.metadata))

/-- The call takes away what is at the path: it removes the path or one above it, or puts a table there or above. -/
def TakesAway {M α : Type} (k : List Str) : HCall M α → Prop
  | .put key df => df ≠ [] ∧ hdfComponents key ≠ [] ∧ hdfComponents key <+: k
  | .remove key => hdfComponents key ≠ [] ∧ hdfComponents key <+: k
  | _ => False

/-- The rows that the call appends at the path. -/
def rowsAppended {M α : Type} (k : List Str) : HCall M α → List (Row α)
  | .append key df => if hdfComponents key = k then df else []
  | _ => []

/-- The metadata that the call sets at the path. -/
def metadataSet {M α : Type} (k : List Str) : HCall M α → Option M
  | .saveMetadata key m => if hdfComponents key = k then some m else none
  | _ => none

/-! ### The tree -/

theorem lookup_if {ν : Type} (c : Str) (e : Str × ν) (l : List (Str × ν)) :
    (e :: l).lookup c = if c = e.1 then some e.2 else l.lookup c := by
  obtain ⟨a, v⟩ := e
  rw [List.lookup_cons]
  by_cases h : c = a
  · have : (c == a) = true := by simpa using h
    rw [this, if_pos h]
  · have : (c == a) = false := by simpa using h
    rw [this, if_neg h]

theorem setKid_lookup {ν : Type} (c c' : Str) (v : ν) (l : List (Str × ν)) :
    (setKid c v l).lookup c' = if c' = c then some v else l.lookup c' := by
  induction l with
  | nil => simp only [setKid, lookup_if, List.lookup_nil]
  | cons e l ih =>
    simp only [setKid]
    by_cases he : e.1 = c
    · rw [if_pos he]
      simp only [lookup_if]
      by_cases h : c' = c
      · simp [h]
      · have : c' ≠ e.1 := by rw [he]; exact h
        simp [h, this]
    · rw [if_neg he]
      simp only [lookup_if, ih]
      by_cases h : c' = e.1
      · simp [h, he]
      · simp [h]

theorem erase_lookup {ν : Type} (c c' : Str) (l : List (Str × ν)) :
    (l.filter (fun e => !(e.1 == c))).lookup c' = if c' = c then none else l.lookup c' := by
  induction l with
  | nil => simp
  | cons e l ih =>
    by_cases he : e.1 = c
    · rw [List.filter_cons_of_neg (by simp [he]), ih]
      by_cases h : c' = c
      · simp [h]
      · have : c' ≠ e.1 := by rw [he]; exact h
        simp [h, lookup_if, this]
    · rw [List.filter_cons_of_pos (by simp [he])]
      simp only [lookup_if, ih]
      by_cases h : c' = e.1
      · simp [h, he]
      · simp [h]

theorem kids_mk {M α : Type} (t : Option (List (Row α))) (m : Option M) (ks : List (Str × HGroup M α)) :
    (HGroup.mk t m ks).kids = ks := rfl

theorem find_cons {M α : Type} (g : HGroup M α) (c : Str) (cs : List Str) :
    g.find (c :: cs) = (g.kids.lookup c).bind (fun k => k.find cs) := by
  cases h : g.kids.lookup c <;> simp [HGroup.find, h]

theorem seen_cons {M α : Type} (g : HGroup M α) (c : Str) (cs : List Str) :
    g.seen (c :: cs) = (g.kids.lookup c).bind (fun k => k.seen cs) := by
  unfold HGroup.seen
  rw [find_cons]
  cases g.kids.lookup c <;> rfl

theorem seen_new {M α : Type} (cs : List Str) :
    (HGroup.new : HGroup M α).seen cs = if cs = [] then some (none, none) else none := by
  cases cs with
  | nil => rfl
  | cons c cs => rw [seen_cons]; rfl

theorem seen_update {M α : Type} (f : HGroup M α → HGroup M α) (p : List Str) :
    ∀ (g : HGroup M α) (k : List Str), (HGroup.update f p g).seen k =
      if p <+: k then (f ((g.find p).getD HGroup.new)).seen (k.drop p.length)
      else if k <+: p then some ((g.seen k).getD (none, none))
      else g.seen k := by
  induction p with
  | nil => intro g k; simp [HGroup.update, HGroup.find]
  | cons c p ih =>
    intro g k
    cases k with
    | nil => simp [HGroup.update, HGroup.seen, HGroup.find, HGroup.table, HGroup.metadata]
    | cons d k =>
      rw [seen_cons]
      simp only [HGroup.update, kids_mk, setKid_lookup]
      by_cases h : d = c
      · subst h
        simp only [if_true, Option.bind_some]
        rw [ih]
        simp only [List.cons_prefix_cons, true_and, List.length_cons, List.drop_succ_cons, find_cons, seen_cons]
        cases hl : List.lookup d g.kids with
        | some n => rfl
        | none =>
          simp only [Option.getD_none, Option.bind_none]
          by_cases hp : p <+: k
          · simp only [hp, if_true]
            cases p with
            | nil => simp [HGroup.find]
            | cons e p => rw [find_cons]; rfl
          · simp only [hp, if_false, seen_new]
            by_cases hk : k = []
            · simp [hk]
            · simp [hk]
      · have h' : ¬ c = d := fun e => h e.symm
        simp only [List.cons_prefix_cons, h, h', false_and, if_false]
        rw [seen_cons]

theorem seen_cut {M α : Type} (p : List Str) (hp : p ≠ []) :
    ∀ (g : HGroup M α) (k : List Str), (HGroup.cut p g).seen k = if p <+: k then none else g.seen k := by
  induction p with
  | nil => exact absurd rfl hp
  | cons c p ih =>
    intro g k
    cases p with
    | nil =>
      cases k with
      | nil => simp [HGroup.cut, HGroup.seen, HGroup.find, HGroup.table, HGroup.metadata]
      | cons d k =>
        rw [seen_cons, seen_cons]
        simp only [HGroup.cut, kids_mk, erase_lookup, List.cons_prefix_cons, List.nil_prefix, and_true]
        by_cases h : d = c
        · subst h; simp
        · have h' : ¬ c = d := fun e => h e.symm
          simp [h, h']
    | cons c₂ p =>
      simp only [HGroup.cut]
      cases hl : List.lookup c g.kids with
      | none =>
        simp only []
        split
        · rename_i h
          obtain ⟨s, rfl⟩ := h
          rw [List.cons_append, seen_cons, hl]; rfl
        · rfl
      | some n =>
        simp only []
        cases k with
        | nil => simp [HGroup.seen, HGroup.find, HGroup.table, HGroup.metadata]
        | cons d k =>
          rw [seen_cons, seen_cons]
          simp only [kids_mk, setKid_lookup]
          by_cases h : d = c
          · subst h
            simp only [if_true, Option.bind_some, hl]
            rw [ih (by simp)]
            simp [List.cons_prefix_cons]
          · have h' : ¬ c = d := fun e => h e.symm
            simp [List.cons_prefix_cons, h, h']

theorem find_none_seen {M α : Type} {g : HGroup M α} {p : List Str} (h : g.find p = none) :
    ∀ s, g.seen (p ++ s) = none := by
  induction p generalizing g with
  | nil => simp [HGroup.find] at h
  | cons c p ih =>
    intro s
    rw [find_cons] at h
    rw [List.cons_append, seen_cons]
    cases hl : List.lookup c g.kids with
    | none => rfl
    | some n =>
      rw [hl] at h
      exact ih h s

theorem prefix_antisymm {k p : List Str} (h1 : k <+: p) (h2 : p <+: k) : k = p :=
  h1.eq_of_length (Nat.le_antisymm h1.length_le h2.length_le)

/-! ### The theorems -/

/-- C93. One call, whether it raises or not: what is seen at any path afterwards is what the specification says. -/
theorem C93_call {M α : Type} (g : HGroup M α) (c : HCall M α) (k : List Str) :
    ((match hdfCall g c with
      | .error _ => g
      | .ok g' => g').seen k) = seenAfter k (g.seen k) c := by
  cases c with
  | put key df =>
    simp only [hdfCall, hdfPut, seenAfter]
    by_cases hdf : df = []
    · simp only [hdf, if_true, true_or]
      cases g.find (hdfComponents key) with
      | none => rfl
      | some n => cases hn : n.table.isSome <;> simp only [hn] <;> rfl
    · by_cases hp : hdfComponents key = []
      · simp [hdf, hp]
      · simp only [hdf, hp, if_false, or_self]
        rw [seen_update]
        by_cases hk : k = hdfComponents key
        · simp [hk, HGroup.seen, HGroup.find, HGroup.table, HGroup.metadata]
        · simp only [hk, if_false]
          split
          · rename_i hpre
            obtain ⟨s, rfl⟩ := hpre
            cases s with
            | nil => simp at hk
            | cons d s => simp [seen_cons, kids_mk]
          · rfl
  | append key df =>
    simp only [hdfCall, hdfAppend, seenAfter]
    by_cases hdf : df = []
    · simp [hdf]
    · by_cases hp : hdfComponents key = []
      · simp [hdf, hp]
      · simp only [hdf, hp, if_false, or_self]
        rw [seen_update]
        by_cases hk : k = hdfComponents key
        · subst hk
          simp only [List.prefix_refl, if_true, List.drop_length]
          simp only [HGroup.seen, HGroup.find, Option.map_some, HGroup.table, HGroup.metadata]
          cases hf : g.find (hdfComponents key) <;>
            simp [HGroup.new]
        · simp only [hk, if_false]
          by_cases hpre : hdfComponents key <+: k
          · have h2 : ¬ k <+: hdfComponents key := fun h => hk (prefix_antisymm h hpre)
            simp only [hpre, h2, if_true, if_false]
            obtain ⟨s, rfl⟩ := hpre
            cases s with
            | nil => simp at hk
            | cons d s =>
              rw [List.drop_left, seen_cons]
              cases hf : g.find (hdfComponents key) with
              | none => rw [find_none_seen hf]; rfl
              | some n =>
                simp only [Option.getD_some, kids_mk]
                have : ∀ (q : List Str) (g : HGroup M α), g.find q = some n →
                    g.seen (q ++ d :: s) = n.seen (d :: s) := by
                  intro q
                  induction q with
                  | nil => intro g h; simp only [HGroup.find, Option.some.injEq] at h; rw [h]; rfl
                  | cons e q ih =>
                    intro g h
                    rw [find_cons] at h
                    rw [List.cons_append, seen_cons]
                    cases hl : List.lookup e g.kids with
                    | none => rw [hl] at h; simp at h
                    | some n' => rw [hl] at h; exact ih n' h
                rw [this _ _ hf, seen_cons]
          · simp only [hpre, if_false]
  | remove key =>
    simp only [hdfCall, hdfRemove, seenAfter]
    cases hf : g.find (hdfComponents key) with
    | none =>
      simp only []
      split
      · rename_i h
        obtain ⟨s, rfl⟩ := h.2
        exact find_none_seen hf s
      · rfl
    | some n =>
      simp only []
      by_cases hp : hdfComponents key = []
      · simp [hp]
      · simp only [hp, if_false, ne_eq, not_false_eq_true, true_and]
        rw [seen_cut _ hp]
  | saveMetadata key m =>
    simp only [hdfCall, hdfSaveMetadata, seenAfter]
    cases hf : g.find (hdfComponents key) with
    | none =>
      simp only []
      split
      · rename_i h
        rw [h]
        simp [HGroup.seen, hf]
      · rfl
    | some n =>
      simp only []
      rw [seen_update]
      have hsub : ∀ (s : List Str) (q : List Str) (g : HGroup M α), g.find q = some n →
          g.seen (q ++ s) = n.seen s := by
        intro s q
        induction q with
        | nil => intro g h; simp only [HGroup.find, Option.some.injEq] at h; rw [h]; rfl
        | cons e q ih =>
          intro g h
          rw [find_cons] at h
          rw [List.cons_append, seen_cons]
          cases hl : List.lookup e g.kids with
          | none => rw [hl] at h; simp at h
          | some n' => rw [hl] at h; exact ih n' h
      by_cases hk : k = hdfComponents key
      · subst hk
        simp [HGroup.seen, HGroup.find, hf, HGroup.table, HGroup.metadata]
      · simp only [hk, if_false, hf, Option.getD_some]
        by_cases hpre : hdfComponents key <+: k
        · simp only [hpre, if_true]
          obtain ⟨s, rfl⟩ := hpre
          cases s with
          | nil => simp at hk
          | cons d s =>
            rw [List.drop_left, hsub _ _ _ hf, seen_cons, seen_cons]
            rfl
        · simp only [hpre, if_false]
          split
          · rename_i h2
            obtain ⟨s, hs⟩ := h2
            cases hg : g.seen k with
            | some x => rfl
            | none =>
              exfalso
              have hfn : g.find k = none := by
                unfold HGroup.seen at hg
                simpa using hg
              have := find_none_seen hfn s
              rw [hs] at this
              simp [HGroup.seen, hf] at this
          · rfl

/-- C93. Any history of calls. -/
theorem C93_history {M α : Type} (cs : List (HCall M α)) (g : HGroup M α) (k : List Str) :
    (hdfRun cs g).seen k = cs.foldl (seenAfter k) (g.seen k) := by
  induction cs generalizing g with
  | nil => rfl
  | cons c cs ih =>
    rw [List.foldl_cons, ← C93_call]
    simp only [hdfRun]
    cases hdfCall g c with
    | error e => exact ih g
    | ok g' => exact ih g'

/-- C93. The components of a key are what stands between slashes, without empty components: a key with a slash splits there,
and a key without slashes is one component, or none if it is empty. -/
theorem C93_key (a b c : Str) (hc : '/' ∉ c) :
    hdfComponents (a ++ '/' :: b) = hdfComponents a ++ hdfComponents b ∧
    hdfComponents c = if c = [] then [] else [c] := by
  constructor
  · unfold hdfComponents
    rw [splitSlash_append, List.filter_append]
  · unfold hdfComponents
    rw [splitSlash_no_slash c hc]
    cases c <;> simp

/-- C93. What `store[key]` gives: `KeyError` if there is no node, `TypeError` for a group without table, else the table. -/
theorem C93_get {M α : Type} (g : HGroup M α) (key : Str) :
    hdfGet g key = match g.seen (hdfComponents key) with
      | none => .error .keyError
      | some (none, _) => .error .typeError
      | some (some rows, _) => .ok rows := by
  unfold hdfGet HGroup.seen
  cases g.find (hdfComponents key) with
  | none => rfl
  | some n => cases h : n.table <;> simp [h]

/-- C93. What `load_metadata(key)` gives: the metadata if there are any, else `AttributeError`. -/
theorem C93_get_metadata {M α : Type} (g : HGroup M α) (key : Str) :
    hdfGetMetadata g key = match g.seen (hdfComponents key) with
      | some (_, some m) => .ok m
      | _ => .error .attributeError := by
  unfold hdfGetMetadata HGroup.seen
  cases g.find (hdfComponents key) with
  | none => rfl
  | some n => cases h : n.metadata <;> simp [h]

theorem seenAfter_table {M α : Type} (k : List Str) (hk : k ≠ []) (s : Seen M α) (c : HCall M α) (h : ¬ TakesAway k c) :
    ((seenAfter k s c).bind Prod.fst).getD [] = (s.bind Prod.fst).getD [] ++ rowsAppended k c ∧
    ((s.bind Prod.fst).isSome → ((seenAfter k s c).bind Prod.fst).isSome) := by
  cases c with
  | put key df =>
    simp only [TakesAway, not_and] at h
    simp only [seenAfter, rowsAppended, List.append_nil]
    by_cases h1 : df = [] ∨ hdfComponents key = []
    · simp [h1]
    · rw [if_neg h1]
      push Not at h1
      have h2 := h h1.1 h1.2
      have h3 : k ≠ hdfComponents key := by rintro rfl; exact h2 (List.prefix_refl _)
      rw [if_neg h3, if_neg h2]
      split
      · cases s <;> simp
      · simp
  | append key df =>
    simp only [seenAfter, rowsAppended]
    by_cases h1 : df = [] ∨ hdfComponents key = []
    · rw [if_pos h1]
      rcases h1 with h1 | h1
      · simp [h1]
      · rw [if_neg (by rw [h1]; exact fun e => hk e.symm)]
        simp
    · rw [if_neg h1]
      by_cases h2 : k = hdfComponents key
      · rw [if_pos h2, if_pos h2.symm]
        simp
      · have h3 : ¬ hdfComponents key = k := fun e => h2 e.symm
        rw [if_neg h2]
        simp only [h3, if_false, List.append_nil]
        split
        · cases s <;> simp
        · simp
  | remove key =>
    simp only [TakesAway] at h
    simp only [seenAfter, rowsAppended, List.append_nil]
    rw [if_neg h]
    simp
  | saveMetadata key m =>
    simp only [seenAfter, rowsAppended, List.append_nil]
    split
    · cases s <;> simp
    · simp

theorem seenAfter_tables {M α : Type} (k : List Str) (hk : k ≠ []) (cs : List (HCall M α)) :
    ∀ (s : Seen M α), (∀ c ∈ cs, ¬ TakesAway k c) →
    ((cs.foldl (seenAfter k) s).bind Prod.fst).getD [] =
      (s.bind Prod.fst).getD [] ++ (cs.map (rowsAppended k)).flatten ∧
    ((s.bind Prod.fst).isSome → ((cs.foldl (seenAfter k) s).bind Prod.fst).isSome) := by
  induction cs with
  | nil => intro s _; simp
  | cons c cs ih =>
    intro s h
    obtain ⟨h1, h2⟩ := seenAfter_table k hk s c (h c List.mem_cons_self)
    obtain ⟨h3, h4⟩ := ih (seenAfter k s c) (fun x hx => h x (List.mem_cons_of_mem _ hx))
    refine ⟨?_, fun hs => h4 (h2 hs)⟩
    rw [List.foldl_cons, h3, h1]
    simp

/-- C93. As long as nothing at the key or above it is removed or replaced, its table is the table that was there followed by
all frames appended to that key, in the order of the calls. Whatever else happens in the store does not matter. -/
theorem C93_read {M α : Type} (cs : List (HCall M α)) (g : HGroup M α) (key : Str) (rows : List (Row α))
    (hk : hdfComponents key ≠ []) (h : hdfGet g key = .ok rows)
    (hcs : ∀ c ∈ cs, ¬ TakesAway (hdfComponents key) c) :
    hdfGet (hdfRun cs g) key = .ok (rows ++ (cs.map (rowsAppended (hdfComponents key))).flatten) := by
  have hs : (g.seen (hdfComponents key)).bind Prod.fst = some rows := by
    rw [C93_get] at h
    split at h
    · cases h
    · cases h
    · rename_i heq; cases h; rw [heq]; rfl
  obtain ⟨h1, h2⟩ := seenAfter_tables _ hk cs (g.seen (hdfComponents key)) hcs
  rw [hs] at h1 h2
  rw [← C93_history] at h1 h2
  rw [C93_get]
  have h3 := h2 rfl
  rcases hrun : (hdfRun cs g).seen (hdfComponents key) with _ | ⟨_ | t, m⟩
  · rw [hrun] at h3; cases h3
  · rw [hrun] at h3; cases h3
  · rw [hrun] at h1
    simp only [Option.bind_some, Option.getD_some] at h1
    simp [h1]

/-- C93. After `put` of a frame with rows the table at the key is that frame, the metadata that were at the key and everything
below it are gone, and the groups above it exist. -/
theorem C93_put_partial {M α : Type} (g g' : HGroup M α) (key : Str) (df : List (Row α)) (hdf : df ≠ [])
    (h : hdfPut g key df = .ok g') :
    hdfGet g' key = .ok df ∧ hdfGetMetadata g' key = .error .attributeError ∧
    (∀ key', hdfComponents key <+: hdfComponents key' → hdfComponents key' ≠ hdfComponents key →
      hdfGet g' key' = .error .keyError) ∧
    (∀ key', hdfComponents key' <+: hdfComponents key → (g'.find (hdfComponents key')).isSome) ∧
    (∀ key', ¬ hdfComponents key <+: hdfComponents key' → ∀ rows,
      (hdfGet g' key' = .ok rows ↔ hdfGet g key' = .ok rows)) := by
  have hp : hdfComponents key ≠ [] := by
    intro hp
    simp [hdfPut, hdf, hp] at h
  have hc : ∀ k, g'.seen k = seenAfter k (g.seen k) (.put key df) := by
    intro k
    rw [← C93_call]
    simp only [hdfCall, h]
  have hcond : ¬ (df = [] ∨ hdfComponents key = []) := by simp [hdf, hp]
  refine ⟨?_, ?_, ?_, ?_, ?_⟩
  · rw [C93_get, hc]
    simp [seenAfter, hcond]
  · rw [C93_get_metadata, hc]
    simp [seenAfter, hcond]
  · intro key' h1 h2
    rw [C93_get, hc]
    simp [seenAfter, hcond, h1, h2]
  · intro key' h1
    have hs := hc (hdfComponents key')
    have : (g'.seen (hdfComponents key')).isSome := by
      rw [hs]
      simp only [seenAfter, hcond, if_false]
      by_cases h2 : hdfComponents key' = hdfComponents key
      · simp [h2]
      · have h3 : ¬ hdfComponents key <+: hdfComponents key' := fun e => h2 (prefix_antisymm h1 e)
        simp [h2, h3, h1]
    unfold HGroup.seen at this
    simpa using this
  · intro key' h1 rows
    have h2 : hdfComponents key' ≠ hdfComponents key := fun e => h1 (by rw [e]; exact List.prefix_refl _)
    rw [C93_get, C93_get, hc]
    simp only [seenAfter, hcond, if_false, h1, h2]
    split
    · rename_i h3
      by_cases h4 : hdfComponents key' <+: hdfComponents key
      · rw [if_pos h4] at h3
        cases h3
      · rw [if_neg h4] at h3
        rw [h3]
    · rename_i h3
      by_cases h4 : hdfComponents key' <+: hdfComponents key
      · rw [if_pos h4] at h3
        rcases hg : g.seen (hdfComponents key') with _ | ⟨_ | t, m⟩
        · simp
        · simp
        · rw [hg] at h3; cases h3
      · rw [if_neg h4] at h3
        rw [h3]
    · rename_i h3
      by_cases h4 : hdfComponents key' <+: hdfComponents key
      · rw [if_pos h4] at h3
        rcases hg : g.seen (hdfComponents key') with _ | ⟨_ | t, m⟩
        · rw [hg] at h3; cases h3
        · rw [hg] at h3; cases h3
        · rw [hg] at h3; cases h3; rfl
      · rw [if_neg h4] at h3
        rw [h3]

/-- C93. The first `append` to a key that has no table stores the frame; whatever the history, `append` raises only for the
root, and an empty frame changes nothing. -/
theorem C93_append {M α : Type} (g : HGroup M α) (key : Str) (df : List (Row α)) (hk : hdfComponents key ≠ []) :
    ∃ g', hdfAppend g key df = .ok g' ∧ (df = [] → g' = g) ∧
      ((∀ rows, hdfGet g key ≠ .ok rows) → df ≠ [] → hdfGet g' key = .ok df) := by
  by_cases hdf : df = []
  · refine ⟨g, ?_, fun _ => rfl, fun _ h => absurd hdf h⟩
    simp [hdfAppend, hdf]
  · refine ⟨g.update (fun k => .mk (some (k.table.getD [] ++ df)) k.metadata k.kids) (hdfComponents key), ?_,
      fun h => absurd h hdf, ?_⟩
    · simp [hdfAppend, hdf, hk]
    · intro hno _
      have hc := C93_call g (.append key df) (hdfComponents key)
      simp only [hdfCall, hdfAppend, hdf, hk, if_false] at hc
      rw [C93_get, hc]
      simp only [seenAfter, hdf, hk, or_self, if_false, if_true]
      rcases hg : g.seen (hdfComponents key) with _ | ⟨_ | t, m⟩
      · simp
      · simp
      · exact absurd (by rw [C93_get, hg]) (hno t)

/-- C93. `put` of an empty frame changes nothing: it raises `KeyError` if there is no node at the key and `TypeError` if there is one without a table. A
frame with rows is refused only in the root. -/
theorem C93_put_errors {M α : Type} (g : HGroup M α) (key : Str) :
    (hdfPut g key [] = match g.seen (hdfComponents key) with
      | none => .error .keyError
      | some (none, _) => .error .typeError
      | some (some _, _) => .ok g) ∧
    ∀ df : List (Row α), df ≠ [] → (hdfComponents key = [] → hdfPut g key df = .error .exception) ∧
      (hdfComponents key ≠ [] → ∃ g', hdfPut g key df = .ok g') := by
  constructor
  · unfold hdfPut HGroup.seen
    simp only [if_true]
    cases hf : g.find (hdfComponents key) with
    | none => rfl
    | some n => cases h : n.table <;> simp [h]
  · intro df hdf
    exact ⟨fun hk => by simp [hdfPut, hdf, hk], fun hk => ⟨_, by simp only [hdfPut, hdf, hk, if_false]; rfl⟩⟩

/-- C93. `remove` raises `KeyError` exactly if there is no node at the key, and otherwise (except for the root) takes away
the node and all below it, and nothing else. -/
theorem C93_remove {M α : Type} (g : HGroup M α) (key : Str) (hk : hdfComponents key ≠ []) :
    (g.seen (hdfComponents key) = none → hdfRemove g key = .error .keyError) ∧
    (g.seen (hdfComponents key) ≠ none → ∃ g', hdfRemove g key = .ok g' ∧
      ∀ k, (hdfComponents key <+: k → g'.seen k = none) ∧ (¬ hdfComponents key <+: k → g'.seen k = g.seen k)) := by
  have hf : g.seen (hdfComponents key) = none ↔ g.find (hdfComponents key) = none := by
    unfold HGroup.seen; simp
  constructor
  · intro h
    simp [hdfRemove, hf.1 h]
  · intro h
    rw [ne_eq, hf] at h
    obtain ⟨n, hn⟩ := Option.ne_none_iff_exists'.1 h
    refine ⟨g.cut (hdfComponents key), by simp [hdfRemove, hn, hk], ?_⟩
    intro k
    rw [seen_cut _ hk]
    constructor <;> intro h' <;> simp [h']

theorem seenAfter_metadata {M α : Type} (k : List Str) (s : Seen M α) (c : HCall M α) (h : ¬ TakesAway k c)
    (hs : s ≠ none) :
    seenAfter k s c ≠ none ∧
    (seenAfter k s c).bind Prod.snd = (metadataSet k c).orElse (fun _ => s.bind Prod.snd) := by
  obtain ⟨⟨t, m₀⟩, rfl⟩ := Option.ne_none_iff_exists'.1 hs
  cases c with
  | put key df =>
    simp only [TakesAway, not_and] at h
    simp only [seenAfter, metadataSet]
    by_cases h1 : df = [] ∨ hdfComponents key = []
    · simp [h1]
    · rw [if_neg h1]
      push Not at h1
      have h2 := h h1.1 h1.2
      have h3 : k ≠ hdfComponents key := by rintro rfl; exact h2 (List.prefix_refl _)
      rw [if_neg h3, if_neg h2]
      split <;> simp
  | append key df =>
    simp only [seenAfter, metadataSet]
    split
    · simp
    · split
      · simp
      · split <;> simp
  | remove key =>
    simp only [TakesAway] at h
    simp only [seenAfter, metadataSet]
    rw [if_neg h]
    simp
  | saveMetadata key m =>
    simp only [seenAfter, metadataSet]
    by_cases h1 : k = hdfComponents key
    · rw [if_pos h1, if_pos h1.symm]; simp
    · rw [if_neg h1, if_neg (fun e => h1 e.symm)]; simp

/-- C93. Metadata that were saved are loaded unchanged, until metadata are saved there again or the node is taken away:
`save_metadata` raises exactly if there is no such node, and after any calls that do not take the node away the metadata
last saved there are loaded. -/
theorem C93_metadata {M α : Type} (cs : List (HCall M α)) (g : HGroup M α) (key : Str) (m : M)
    (hcs : ∀ c ∈ cs, ¬ TakesAway (hdfComponents key) c) :
    (g.seen (hdfComponents key) = none → hdfSaveMetadata g key m = .error .attributeError) ∧
    (g.seen (hdfComponents key) ≠ none → ∃ g', hdfSaveMetadata g key m = .ok g' ∧
      hdfGetMetadata (hdfRun cs g') key =
        .ok (((cs.filterMap (metadataSet (hdfComponents key))).getLast?).getD m)) := by
  have hf : g.seen (hdfComponents key) = none ↔ g.find (hdfComponents key) = none := by
    unfold HGroup.seen; simp
  constructor
  · intro h
    simp [hdfSaveMetadata, hf.1 h]
  · intro h
    have h' := h
    rw [ne_eq, hf] at h
    obtain ⟨n, hn⟩ := Option.ne_none_iff_exists'.1 h
    refine ⟨_, by simp [hdfSaveMetadata, hn]; rfl, ?_⟩
    have hc := C93_call g (.saveMetadata key m) (hdfComponents key)
    simp only [hdfCall, hdfSaveMetadata, hn] at hc
    simp only [seenAfter, if_true] at hc
    obtain ⟨⟨t, m₀⟩, hg⟩ := Option.ne_none_iff_exists'.1 h'
    rw [hg] at hc
    simp only [Option.map_some] at hc
    rw [C93_get_metadata, C93_history, hc]
    clear hc hg h h' hf hn
    generalize hdfComponents key = k at *
    induction cs generalizing t m with
    | nil => simp
    | cons c cs ih =>
      obtain ⟨h1, h2⟩ := seenAfter_metadata k (some (t, some m)) c (hcs c List.mem_cons_self) (by simp)
      rw [List.foldl_cons]
      obtain ⟨⟨t', m'⟩, hs⟩ := Option.ne_none_iff_exists'.1 h1
      rw [hs] at h2 ⊢
      cases hm : metadataSet k c with
      | none =>
        rw [hm] at h2
        simp at h2
        rw [h2, ih m t' (fun x hx => hcs x (List.mem_cons_of_mem _ hx)), List.filterMap_cons_none hm]
      | some m₁ =>
        rw [hm] at h2
        simp at h2
        rw [h2, ih m₁ t' (fun x hx => hcs x (List.mem_cons_of_mem _ hx)), List.filterMap_cons_some hm]
        cases hl : List.filterMap (metadataSet k) cs with
        | nil => simp
        | cons a l => rw [List.getLast?_cons_cons, List.getLast?_eq_some_getLast (List.cons_ne_nil a l)]; rfl

/-- C93. The elements below a key are the names under which there is a node, and the leaf with the rows. -/
theorem C93_elements {M α : Type} (g : HGroup M α) (key : Str) (names : List Str) (h : hdfElements g key = .ok names)
    (c : Str) :
    c ∈ names ↔ g.seen (hdfComponents key ++ [c]) ≠ none ∨ (c = "table".toList ∧ ∃ rows, hdfGet g key = .ok rows) := by
  unfold hdfElements at h
  cases hf : g.find (hdfComponents key) with
  | none => rw [hf] at h; cases h
  | some n =>
    rw [hf] at h
    simp only [Except.ok.injEq] at h
    have hsub : ∀ (q : List Str) (g : HGroup M α), g.find q = some n → g.seen (q ++ [c]) = n.seen [c] := by
      intro q
      induction q with
      | nil => intro g h; simp only [HGroup.find, Option.some.injEq] at h; rw [h]; rfl
      | cons e q ih =>
        intro g h
        rw [find_cons] at h
        rw [List.cons_append, seen_cons]
        cases hl : List.lookup e g.kids with
        | none => rw [hl] at h; simp at h
        | some n' => rw [hl] at h; exact ih n' h
    rw [hsub _ _ hf, ← h, List.mem_append, seen_cons]
    have h1 : c ∈ n.kids.map Prod.fst ↔ (n.kids.lookup c).bind (fun k => k.seen []) ≠ none := by
      generalize n.kids = l
      induction l with
      | nil => simp
      | cons e l ih =>
        rw [lookup_if]
        by_cases he : c = e.1
        · simp [he, HGroup.seen, HGroup.find]
        · rw [if_neg he, List.map_cons, List.mem_cons]
          simp [he, ih]
    have h2 : (c ∈ if n.table.isSome = true then ["table".toList] else []) ↔
        (c = "table".toList ∧ ∃ rows, hdfGet g key = .ok rows) := by
      unfold hdfGet
      rw [hf]
      cases ht : n.table with
      | none => simp [ht]
      | some t => simp [ht]
    rw [h1, h2]
    exact or_comm

/-- C93. Loading a table without window and sections, when it fits into one chunk: exactly the rows that were put and
appended, provided their times increase and there are at least two. -/
theorem C93_load_partial {M α : Type} (cs : List (HCall M α)) (g g' : HGroup M α) (key : Str) (df : List (Row α))
    (hdf : df ≠ []) (h : hdfPut g key df = .ok g') (hcs : ∀ c ∈ cs, ¬ TakesAway (hdfComponents key) c)
    (rows : List (Row α)) (hr : rows = df ++ (cs.map (rowsAppended (hdfComponents key))).flatten)
    (hinc : Increasing rows) (h2 : 2 ≤ rows.length) (chunksize : Int) (hsize : (rows.length : Int) ≤ chunksize) :
    (hdfLoad ((hdfRun cs g').find (hdfComponents key) |>.bind HGroup.table) TF.blank none 0 chunksize).1.out.map
      Chunk.rows = [rows] ∧
    (hdfLoad ((hdfRun cs g').find (hdfComponents key) |>.bind HGroup.table) TF.blank none 0 chunksize).1.err = none := by
  have hp : hdfComponents key ≠ [] := by
    intro hp
    simp [hdfPut, hdf, hp] at h
  have h1 := C93_read cs g' key df hp (C93_put_partial g g' key df hdf h).1 hcs
  rw [← hr] at h1
  have h3 : ((hdfRun cs g').find (hdfComponents key) |>.bind HGroup.table) = some rows := by
    unfold hdfGet at h1
    cases hf : (hdfRun cs g').find (hdfComponents key) with
    | none => rw [hf] at h1; cases h1
    | some n =>
      rw [hf] at h1
      simp only [Option.bind_some]
      cases ht : n.table with
      | none => simp [ht] at h1
      | some t => simp [ht] at h1; rw [h1]
  rw [h3]
  exact load_whole rows hinc chunksize h2 hsize

/-- C93. `get_timeframe` of a table with at least two rows with increasing times: it does not raise, and an instant lies in
it exactly if it lies in the window, not before the first row and before the last row. -/
theorem C93_timeframe {M α : Type} (g : HGroup M α) (window : TF) (hw : window.includeEnd = false) (key : Str)
    (a b : Row α) (mid : List (Row α)) (h : hdfGet g key = .ok (a :: mid ++ [b])) (hab : a.1 < b.1) :
    ∃ tf, hdfTimeframe g window key = .ok tf ∧ ∀ t, Mem t tf ↔ Mem t window ∧ a.1 ≤ t ∧ t < b.1 := by
  refine ⟨window.intersection (mk' (some a.1) (some b.1)), ?_, ?_⟩
  · unfold hdfTimeframe
    have hl : (a :: (mid ++ [b])).getLast? = some b := by
      rw [← List.cons_append]; exact List.getLast?_concat
    rw [h]
    simp only [List.cons_append, hl, List.head?_cons, ctor_two _ _ hab]
  · intro t
    rw [C02_intersection_halfopen _ _ _ hw rfl]
    simp [Mem, mk', TF.start, TF.stop]

/-- C93. What `get_timeframe` raises: what reading the table raises, `IndexError` for a table without rows, `ValueError` if the
last row is not later than the first one. -/
theorem C93_timeframe_errors {M α : Type} (g : HGroup M α) (window : TF) (key : Str) :
    (∀ e, hdfGet g key = .error e → hdfTimeframe g window key = .error e) ∧
    (hdfGet g key = .ok [] → hdfTimeframe g window key = .error .indexError) ∧
    (∀ a b rows, hdfGet g key = .ok rows → rows.head? = some a → rows.getLast? = some b → b.1 ≤ a.1 →
      hdfTimeframe g window key = .error .valueError) := by
  refine ⟨fun e h => ?_, fun h => ?_, fun a b rows h ha hb hab => ?_⟩
  · unfold hdfTimeframe; rw [h]
  · unfold hdfTimeframe; rw [h]; rfl
  · unfold hdfTimeframe
    have hc : TF.ctor (some a.1) (some b.1) = .error .valueError := by
      simp [TF.ctor, TF.setStart, TF.setEnd, TF.blank, TF.start, TF.stop, hab]
    rw [h]
    simp only [ha, hb, hc]

theorem coordinates_count {α : Type} (ts : Option Int × Option (Int × Bool)) (rows : List (Row α)) :
    (coordinates ts rows).length = (rows.filter (fun r => matchesTerms ts r.1)).length := by
  unfold coordinates
  induction rows with
  | nil => rfl
  | cons r rows ih =>
    rw [List.length_cons, List.range_succ_eq_map, List.filter_cons, List.filter_map, List.filter_cons]
    simp only [List.getElem?_cons_zero, Function.comp_def, List.getElem?_cons_succ]
    split <;> simp [ih]

/-- C93. `_nrows` counts the rows whose time lies in the window and in the time frame. -/
theorem C93_nrows {M α : Type} (g : HGroup M α) (window : TF) (hw : window.includeEnd = false) (key : Str)
    (tf : Option TF) (htf : ∀ f, tf = some f → f.includeEnd = false) (rows : List (Row α))
    (h : hdfGet g key = .ok rows) (p : Int → Bool)
    (hp : ∀ t, p t = true ↔ Mem t window ∧ ∀ f, tf = some f → Mem t f) :
    hdfNrows g window key tf = .ok (rows.filter (fun r => p r.1)).length := by
  have hm : ∀ t, p t = true ↔ Mem t (window.intersectionOpt tf) := by
    intro t
    rw [hp]
    cases tf with
    | none => simp [TF.intersectionOpt]
    | some f =>
      simp only [TF.intersectionOpt]
      rw [C02_intersection_halfopen _ _ _ hw (htf f rfl)]
      simp
  unfold hdfNrows
  generalize window.intersectionOpt tf = w at hm
  simp only []
  cases he : w.empty with
  | true =>
    simp only [if_true]
    have : rows.filter (fun r => p r.1) = [] := by
      rw [List.filter_eq_nil_iff]
      intro r _ hr
      have := (hm r.1).1 hr
      unfold Mem at this
      rw [he] at this
      exact absurd this.1 (by simp)
    rw [this]; rfl
  | false =>
    simp only [Bool.false_eq_true, if_false]
    cases hq : w.queryTerms with
    | error e =>
      simp only [TF.queryTerms, he, Bool.false_eq_true, if_false] at hq
      split at hq <;> cases hq
    | ok terms =>
      simp only [h]
      cases terms with
      | none =>
        obtain ⟨_, h1, h2⟩ := queryTerms_none hq
        have : rows.filter (fun r => p r.1) = rows := by
          rw [List.filter_eq_self]
          intro r _
          rw [hm]
          simp [Mem, he, h1, h2]
        rw [this]
      | some ts =>
        simp only [coordinates_count]
        congr 2
        apply List.filter_congr
        intro r _
        rw [Bool.eq_iff_iff, matchesTerms_iff hq, hm]

/-! ### What is false -/

/-- C93: putting an empty frame does not empty the table: the rows that were there stay, without an error. -/
theorem C93_empty_put_counterexample :
    ∃ g g' : HGroup Unit Nat, hdfGet g "/building1/elec/meter1".toList = .ok [(0, 5), (6, 7)] ∧
      hdfPut g "/building1/elec/meter1".toList [] = .ok g' ∧
      hdfGet g' "/building1/elec/meter1".toList = .ok [(0, 5), (6, 7)] := by
  refine ⟨hdfRun [.put "/building1/elec/meter1".toList [(0, 5), (6, 7)]] HGroup.new, _, ?_, rfl, ?_⟩ <;>
    decide +kernel

/-- C93: putting a table where metadata were saved loses the metadata, although `append` keeps them. -/
theorem C93_put_metadata_counterexample :
    hdfGetMetadata (hdfRun [.append "/building1".toList [(0, 5)], .saveMetadata "/building1".toList 3,
      .append "/building1".toList [(1, 5)]] (HGroup.new : HGroup Nat Nat)) "/building1".toList = .ok 3 ∧
    hdfGetMetadata (hdfRun [.append "/building1".toList [(0, 5)], .saveMetadata "/building1".toList 3,
      .put "/building1".toList [(1, 5)]] (HGroup.new : HGroup Nat Nat)) "/building1".toList = .error .attributeError := by
  constructor <;> decide +kernel

/-- C93: a table with a single row has no time frame: `ValueError`. -/
theorem C93_timeframe_counterexample :
    hdfTimeframe (hdfRun [.put "/building1/elec/meter1".toList [(6, 7)]] (HGroup.new : HGroup Unit Nat)) TF.blank
      "/building1/elec/meter1".toList = .error .valueError := by
  decide +kernel

/-- The hypotheses hold for a history with two meters, appended in turns, one of which is removed. -/
example : ∃ g g' : HGroup Nat Nat, hdfPut g "/building1/elec/meter1".toList [(0, 5), (6, 7)] = .ok g' ∧
    (∀ c ∈ ([.append "building1/elec/meter1".toList [(12, 3)], .append "/building1/elec/meter2".toList [(0, 1)],
      .saveMetadata "/building1".toList 9, .remove "/building1/elec/meter2".toList,
      .append "/building1/elec/meter1/".toList [(18, 4)]] : List (HCall Nat Nat)),
      ¬ TakesAway (hdfComponents "/building1/elec/meter1".toList) c) ∧
    hdfGet (hdfRun [.append "building1/elec/meter1".toList [(12, 3)], .append "/building1/elec/meter2".toList [(0, 1)],
      .saveMetadata "/building1".toList 9, .remove "/building1/elec/meter2".toList,
      .append "/building1/elec/meter1/".toList [(18, 4)]] g') "/building1/elec/meter1".toList =
        .ok [(0, 5), (6, 7), (12, 3), (18, 4)] := by
  refine ⟨HGroup.new, _, rfl, ?_, by decide +kernel⟩
  intro c hc
  simp only [List.mem_cons, List.not_mem_nil, or_false] at hc
  rcases hc with rfl | rfl | rfl | rfl | rfl
  · exact id
  · exact id
  · exact id
  · rintro ⟨_, h⟩
    revert h
    decide
  · exact id

/-- The number of rows of a window, and the time frame. -/
example : hdfNrows (hdfRun [.put "/building1/elec/meter1".toList [(0, 5), (6, 7), (12, 3)]] (HGroup.new : HGroup Unit Nat))
      (mk' (some 3) none) "/building1/elec/meter1".toList (some (mk' (some 0) (some 12))) = .ok 1 ∧
    hdfTimeframe (hdfRun [.put "/building1/elec/meter1".toList [(0, 5), (6, 7), (12, 3)]] (HGroup.new : HGroup Unit Nat))
      (mk' (some 3) none) "/building1/elec/meter1".toList = .ok (mk' (some 3) (some 12)) := by
  constructor <;> decide +kernel

end Nilmtk
