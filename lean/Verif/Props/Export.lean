import Verif.Model.Export
import Verif.Props.LegacyDisag
/-!
C96: exporting a trained legacy disaggregator and importing it again.
-/
namespace Nilmtk

/-! ### Specification -/

/-- The meter is on a file that `HDFDataStore` opened. -/
def OnHdf (h : ObjHeap) (id : Nat) : Prop := ∃ file, (h.obj id).store = .hdf file

/-- The meters in `ids` have the name of their file for a store; nothing else differs. -/
def Stripped (ids : List Nat) (h h' : ObjHeap) : Prop :=
  h'.next = h.next ∧
  (∀ i, (h'.obj i).meter = (h.obj i).meter) ∧
  (∀ i ∈ ids, ∀ file, (h.obj i).store = .hdf file → (h'.obj i).store = .text file) ∧
  ∀ i, i ∉ ids → h'.obj i = h.obj i

/-- Whether the write went through, as far as the caller can tell. -/
def Writing.outcome : Writing → Except Err Unit
  | .openFails e => .error e
  | .dumpFails e => .error e
  | .works => .ok ()

/-- `ids'` in `h'` are new objects that are equal to `ids` in `h`, on the same files. -/
def Copied (n : Nat) (h h' : ObjHeap) (ids ids' : List Nat) : Prop :=
  (∀ i ∈ ids', n ≤ i) ∧ ids'.map h'.obj = ids.map h.obj

/-! ### Lemmas -/

theorem MeterObj.ext' {a b : MeterObj} (h1 : a.meter = b.meter) (h2 : a.store = b.store) : a = b := by
  cases a; cases b; simp_all

theorem setStore_obj (h : ObjHeap) (id i : Nat) (s : StoreRef) :
    (h.setStore id s).obj i = if i = id then { h.obj i with store := s } else h.obj i := rfl

theorem detach_spec : ∀ (ids : List Nat) (h : ObjHeap), ids.Nodup → (∀ i ∈ ids, OnHdf h i) →
    ∃ h', detachStores ids h = (h', .ok (ids.map (fun i => (h.obj i).store))) ∧ Stripped ids h h'
  | [], h, _, _ => ⟨h, rfl, rfl, fun _ => rfl, by simp, fun _ _ => rfl⟩
  | id :: ids, h, hn, hh => by
    obtain ⟨file, hf⟩ := hh id (by simp)
    have hid : id ∉ ids := (List.nodup_cons.mp hn).1
    have hsame : ∀ i ∈ ids, (h.setStore id (.text file)).obj i = h.obj i := by
      intro i hi
      rw [setStore_obj, if_neg (by rintro rfl; exact hid hi)]
    obtain ⟨h', he, h1, h2, h3, h4⟩ := detach_spec ids (h.setStore id (.text file)) (List.nodup_cons.mp hn).2
      (fun i hi => by
        obtain ⟨g, hg⟩ := hh i (by simp [hi])
        exact ⟨g, by rw [hsame i hi]; exact hg⟩)
    refine ⟨h', ?_, h1, ?_, ?_, ?_⟩
    · simp only [detachStores, hf, he, List.map_cons]
      congr 3
      exact List.map_congr_left (fun i hi => by rw [hsame i hi])
    · intro i
      rw [h2 i, setStore_obj]
      split <;> rfl
    · intro i hi g hg
      rcases List.mem_cons.mp hi with rfl | hi'
      · rw [h4 _ hid, setStore_obj, if_pos rfl]
        have := hf.symm.trans hg
        injection this with this
        rw [this]
      · exact h3 i hi' g (by rw [hsame i hi']; exact hg)
    · intro i hi
      rw [h4 i (fun hm => hi (by simp [hm])), setStore_obj, if_neg (fun he => hi (by simp [he]))]

/-- The loop stops at the first meter whose store has no file name, with the meters before it changed. -/
theorem detach_stops : ∀ (pre : List Nat) (x : Nat) (post : List Nat) (h : ObjHeap), pre.Nodup → (∀ i ∈ pre, OnHdf h i) →
    (x ∈ pre ∨ ¬ OnHdf h x) →
    ∃ h', detachStores (pre ++ x :: post) h = (h', .error .attributeError) ∧ Stripped pre h h'
  | [], x, post, h, _, _, hx => by
    refine ⟨h, ?_, rfl, fun _ => rfl, by simp, fun _ _ => rfl⟩
    have hx' : ¬ OnHdf h x := by simpa using hx
    simp only [List.nil_append, detachStores]
    split
    · rename_i file hf
      exact absurd ⟨file, hf⟩ hx'
    · rfl
    · rfl
  | id :: pre, x, post, h, hn, hh, hx => by
    obtain ⟨file, hf⟩ := hh id (by simp)
    have hid : id ∉ pre := (List.nodup_cons.mp hn).1
    have hsame : ∀ i, i ≠ id → (h.setStore id (.text file)).obj i = h.obj i := by
      intro i hi
      rw [setStore_obj, if_neg hi]
    have hx' : x ∈ pre ∨ ¬ OnHdf (h.setStore id (.text file)) x := by
      by_cases hxi : x = id
      · right
        rintro ⟨g, hg⟩
        rw [setStore_obj, if_pos hxi] at hg
        simp at hg
      · rcases hx with hm | hm
        · rcases List.mem_cons.mp hm with h1 | h1
          · exact absurd h1 hxi
          · exact Or.inl h1
        · right
          rintro ⟨g, hg⟩
          exact hm ⟨g, by rw [← hsame x hxi]; exact hg⟩
    obtain ⟨h', he, h1, h2, h3, h4⟩ := detach_stops pre x post (h.setStore id (.text file)) (List.nodup_cons.mp hn).2
      (fun i hi => by
        obtain ⟨g, hg⟩ := hh i (by simp [hi])
        exact ⟨g, by rw [hsame i (by rintro rfl; exact hid hi)]; exact hg⟩) hx'
    refine ⟨h', ?_, h1, ?_, ?_, ?_⟩
    · simp only [List.cons_append, detachStores, hf, he]
    · intro i
      rw [h2 i, setStore_obj]
      split <;> rfl
    · intro i hi g hg
      rcases List.mem_cons.mp hi with rfl | hi'
      · rw [h4 _ hid, setStore_obj, if_pos rfl]
        have := hf.symm.trans hg
        injection this with this
        rw [this]
      · exact h3 i hi' g (by rw [hsame i (by rintro rfl; exact hid hi')]; exact hg)
    · intro i hi
      rw [h4 i (fun hm => hi (by simp [hm])), hsame i (fun he => hi (by simp [he]))]

theorem attach_spec (s : Nat → StoreRef) : ∀ (ids : List Nat) (h : ObjHeap),
    (attachStores (List.zip (ids.map s) ids) h).next = h.next ∧
    ∀ i, (attachStores (List.zip (ids.map s) ids) h).obj i = if i ∈ ids then { h.obj i with store := s i } else h.obj i
  | [], h => ⟨rfl, fun i => by simp [attachStores]⟩
  | id :: ids, h => by
    obtain ⟨h1, h2⟩ := attach_spec s ids (h.setStore id (s id))
    refine ⟨h1, fun i => ?_⟩
    simp only [List.map_cons, List.zip_cons_cons, attachStores]
    rw [h2 i, setStore_obj]
    by_cases hm : i ∈ ids <;> by_cases he : i = id <;> simp [hm, he]

/-- Restoring undoes what the loop did. -/
theorem attach_undoes (ids : List Nat) (h h' : ObjHeap) (hs : Stripped ids h h') :
    attachStores (List.zip (ids.map (fun i => (h.obj i).store)) ids) h' = h := by
  obtain ⟨h1, h2⟩ := attach_spec (fun i => (h.obj i).store) ids h'
  obtain ⟨s1, s2, _, s4⟩ := hs
  have : (attachStores (List.zip (ids.map (fun i => (h.obj i).store)) ids) h').obj = h.obj := by
    funext i
    rw [h2 i]
    split
    · exact MeterObj.ext' (s2 i) rfl
    · rename_i hi
      exact s4 i hi
  cases h with
  | mk n o =>
    generalize attachStores _ h' = r at *
    cases r
    simp_all

theorem reopen_spec (opens : String → Option Err) : ∀ (ids : List Nat) (h : ObjHeap), ids.Nodup →
    (∀ i ∈ ids, ∃ file, (h.obj i).store = .text file ∧ opens file = none) →
    ∃ h', reopenStores opens ids h = (h', .ok ()) ∧ h'.next = h.next ∧ (∀ i, (h'.obj i).meter = (h.obj i).meter) ∧
      (∀ i ∈ ids, ∀ file, (h.obj i).store = .text file → (h'.obj i).store = .hdf file) ∧
      ∀ i, i ∉ ids → h'.obj i = h.obj i
  | [], h, _, _ => ⟨h, rfl, rfl, fun _ => rfl, by simp, fun _ _ => rfl⟩
  | id :: ids, h, hn, hh => by
    obtain ⟨file, hf, ho⟩ := hh id (by simp)
    have hid : id ∉ ids := (List.nodup_cons.mp hn).1
    have hsame : ∀ i ∈ ids, (h.setStore id (.hdf file)).obj i = h.obj i := by
      intro i hi
      rw [setStore_obj, if_neg (by rintro rfl; exact hid hi)]
    obtain ⟨h', he, h1, h2, h3, h4⟩ := reopen_spec opens ids (h.setStore id (.hdf file)) (List.nodup_cons.mp hn).2
      (fun i hi => by
        obtain ⟨g, hg, hog⟩ := hh i (by simp [hi])
        exact ⟨g, by rw [hsame i hi]; exact hg, hog⟩)
    refine ⟨h', ?_, h1, ?_, ?_, ?_⟩
    · simp only [reopenStores, hf, ho, he]
    · intro i
      rw [h2 i, setStore_obj]
      split <;> rfl
    · intro i hi g hg
      rcases List.mem_cons.mp hi with rfl | hi'
      · rw [h4 _ hid, setStore_obj, if_pos rfl]
        have := hf.symm.trans hg
        injection this with this
        rw [this]
      · exact h3 i hi' g (by rw [hsame i hi']; exact hg)
    · intro i hi
      rw [h4 i (fun hm => hi (by simp [hm])), setStore_obj, if_neg (fun he => hi (by simp [he]))]

/-- Opening the stores changes nothing but the stores of these meters, whether or not it works. -/
theorem reopen_frame (opens : String → Option Err) : ∀ (ids : List Nat) (h : ObjHeap),
    (reopenStores opens ids h).1.next = h.next ∧
    (∀ i, ((reopenStores opens ids h).1.obj i).meter = (h.obj i).meter) ∧
    ∀ i, i ∉ ids → (reopenStores opens ids h).1.obj i = h.obj i
  | [], h => ⟨rfl, fun _ => rfl, fun _ _ => rfl⟩
  | id :: ids, h => by
    simp only [reopenStores]
    split
    · split
      · exact ⟨rfl, fun _ => rfl, fun _ _ => rfl⟩
      · rename_i file _ _ _
        obtain ⟨h1, h2, h3⟩ := reopen_frame opens ids (h.setStore id (.hdf file))
        refine ⟨h1, fun i => ?_, fun i hi => ?_⟩
        · rw [h2 i, setStore_obj]
          split <;> rfl
        · rw [h3 i (fun hm => hi (by simp [hm])), setStore_obj, if_neg (fun he => hi (by simp [he]))]
    · exact ⟨rfl, fun _ => rfl, fun _ _ => rfl⟩
    · exact ⟨rfl, fun _ => rfl, fun _ _ => rfl⟩

/-- The first store that cannot be opened ends the loop with its exception. -/
theorem reopen_stops (opens : String → Option Err) : ∀ (pre : List Nat) (x : Nat) (post : List Nat) (h : ObjHeap) (f : String)
    (e : Err), (pre ++ x :: post).Nodup → (∀ i ∈ pre, ∃ file, (h.obj i).store = .text file ∧ opens file = none) →
    (h.obj x).store = .text f → opens f = some e → (reopenStores opens (pre ++ x :: post) h).2 = .error e
  | [], x, post, h, f, e, _, _, hx, he => by simp [reopenStores, hx, he]
  | id :: pre, x, post, h, f, e, hn, hh, hx, he => by
    obtain ⟨file, hf, ho⟩ := hh id (by simp)
    have hid : id ∉ pre ++ x :: post := (List.nodup_cons.mp hn).1
    simp only [List.cons_append, reopenStores, hf, ho]
    refine reopen_stops opens pre x post _ f e (List.nodup_cons.mp hn).2 (fun i hi => ?_) ?_ he
    · obtain ⟨g, hg, hog⟩ := hh i (by simp [hi])
      exact ⟨g, by rw [setStore_obj, if_neg (by rintro rfl; exact hid (by simp [hi]))]; exact hg, hog⟩
    · rw [setStore_obj, if_neg (by rintro rfl; exact hid (by simp))]
      exact hx

/-- Something that is not a file name ends it with a `TypeError`. -/
theorem reopen_no_name (opens : String → Option Err) : ∀ (pre : List Nat) (x : Nat) (post : List Nat) (h : ObjHeap),
    (pre ++ x :: post).Nodup → (∀ i ∈ pre, ∃ file, (h.obj i).store = .text file ∧ opens file = none) →
    (∀ f, (h.obj x).store ≠ .text f) → (reopenStores opens (pre ++ x :: post) h).2 = .error .typeError
  | [], x, post, h, _, _, hx => by
    cases hs : (h.obj x).store with
    | text f => exact absurd hs (hx f)
    | hdf _ => simp [reopenStores, hs]
    | other _ => simp [reopenStores, hs]
  | id :: pre, x, post, h, hn, hh, hx => by
    obtain ⟨file, hf, ho⟩ := hh id (by simp)
    have hid : id ∉ pre ++ x :: post := (List.nodup_cons.mp hn).1
    simp only [List.cons_append, reopenStores, hf, ho]
    refine reopen_no_name opens pre x post _ (List.nodup_cons.mp hn).2 (fun i hi => ?_) ?_
    · obtain ⟨g, hg, hog⟩ := hh i (by simp [hi])
      exact ⟨g, by rw [setStore_obj, if_neg (by rintro rfl; exact hid (by simp [hi]))]; exact hg, hog⟩
    · rw [setStore_obj, if_neg (by rintro rfl; exact hid (by simp))]
      exact hx

/-- Writing the pickle of an object whose meters have file names for stores. -/
theorem writePickle_spec {α : Type} (w : Writing) (disk : Disk α) (file : String) (v : α) (ids : List Nat) (h h' : ObjHeap)
    (hh : ∀ i ∈ ids, OnHdf h i) (hs : Stripped ids h h') :
    (writePickle w disk file v ids h').2 = w.outcome ∧
    (∀ f, f ≠ file → (writePickle w disk file v ids h').1 f = disk f) ∧
    (w = .works → (writePickle w disk file v ids h').1 file = some (.pickle v h')) ∧
    ((∃ e, w = .openFails e) → (writePickle w disk file v ids h').1 = disk) ∧
    ((∃ e, w = .dumpFails e) → (writePickle w disk file v ids h').1 file = some .junk) := by
  cases w with
  | openFails e => simp [writePickle, Writing.outcome]
  | dumpFails e =>
    refine ⟨rfl, fun f hf => by simp [writePickle, hf], by simp, by simp, fun _ => by simp [writePickle]⟩
  | works =>
    have hall : (ids.all (fun id => (h'.obj id).store.pickles)) = true := by
      rw [List.all_eq_true]
      intro i hi
      obtain ⟨g, hg⟩ := hh i hi
      rw [hs.2.2.1 i hi g hg]
      rfl
    simp only [writePickle, hall, if_true]
    exact ⟨rfl, fun f hf => by simp [hf], fun _ => by simp, by simp, by simp⟩

/-- Different identifiers are those of different objects. -/
theorem ids_nodup {κ : Type} (f : Nat → κ) (ids : List Nat) (h : (ids.map f).Nodup) : ids.Nodup := List.Nodup.of_map f h

/-- Loading a pickle and opening the stores gives copies on the same files. -/
theorem load_copies {α : Type} (opens : String → Option Err) (disk : Disk α) (file : String) (v : α) (ids : List Nat)
    (h hs h2 : ObjHeap) (hn : ids.Nodup) (hh : ∀ i ∈ ids, OnHdf h i) (hstr : Stripped ids h hs)
    (hd : disk file = some (.pickle v hs)) (ho : ∀ i ∈ ids, ∀ f, (h.obj i).store = .hdf f → opens f = none) :
    ∃ h1 h3, readPickle disk file h2 = .ok (v, h2.next, h1) ∧
      reopenStores opens (ids.map (fun i => h2.next + i)) h1 = (h3, .ok ()) ∧
      Copied h2.next h h3 ids (ids.map (fun i => h2.next + i)) ∧ ∀ i, i < h2.next → h3.obj i = h2.obj i := by
  obtain ⟨s1, s2, s3, s4⟩ := hstr
  refine ⟨⟨h2.next + hs.next, fun i => if i < h2.next then h2.obj i else hs.obj (i - h2.next)⟩, ?_⟩
  have hobj : ∀ i, (⟨h2.next + hs.next, fun i => if i < h2.next then h2.obj i else hs.obj (i - h2.next)⟩ : ObjHeap).obj
      (h2.next + i) = hs.obj i := by
    intro i
    simp
  obtain ⟨h3, r1, r2, r3, r4, r5⟩ := reopen_spec opens (ids.map (fun i => h2.next + i))
    ⟨h2.next + hs.next, fun i => if i < h2.next then h2.obj i else hs.obj (i - h2.next)⟩
    (List.Nodup.map (fun a b hab => by simpa using hab) hn) (by
      intro j hj
      obtain ⟨i, hi, rfl⟩ := List.mem_map.mp hj
      obtain ⟨g, hg⟩ := hh i hi
      exact ⟨g, by rw [hobj]; exact s3 i hi g hg, ho i hi g hg⟩)
  refine ⟨h3, ?_, r1, ⟨?_, ?_⟩, ?_⟩
  · simp [readPickle, hd]
  · intro j hj
    obtain ⟨i, _, rfl⟩ := List.mem_map.mp hj
    exact Nat.le_add_right _ _
  · rw [List.map_map]
    refine List.map_congr_left (fun i hi => ?_)
    obtain ⟨g, hg⟩ := hh i hi
    refine MeterObj.ext' ?_ ?_
    · show (h3.obj (h2.next + i)).meter = _
      rw [r3, hobj, s2]
    · show (h3.obj (h2.next + i)).store = _
      rw [r4 (h2.next + i) (List.mem_map.mpr ⟨i, hi, rfl⟩) g (by rw [hobj]; exact s3 i hi g hg), hg]
  · intro i hi
    rw [r5 i (by
      intro hm
      obtain ⟨j, _, hj⟩ := List.mem_map.mp hm
      omega)]
    simp [hi]

theorem orderedSet_lookup {ν : Type} (d : List (String × ν)) (k : String) (v : ν) (x : String) :
    (orderedSet d k v).lookup x = if x = k then some v else d.lookup x := by
  unfold orderedSet
  split
  · rename_i hk
    induction d with
    | nil => simp at hk
    | cons a d ih =>
      obtain ⟨ka, va⟩ := a
      by_cases hka : ka = k
      · subst hka
        by_cases hx : x = ka
        · subst hx; simp
        · simp only [List.map_cons, if_true, List.lookup_cons, hx, if_false]
          have : (x == ka) = false := by simpa using hx
          rw [this]
          by_cases hk' : ka ∈ d.map Prod.fst
          · rw [ih hk', if_neg hx]
          · have : ∀ e ∈ d, (fun e : String × ν => if e.1 = ka then (ka, v) else e) e = e := by
              intro e he
              have : e.1 ≠ ka := fun h => hk' (List.mem_map.mpr ⟨e, he, h⟩)
              simp [this]
            rw [List.map_congr_left this, List.map_id']
      · have hk' : k ∈ d.map Prod.fst := by
          rcases List.mem_cons.mp hk with h | h
          · exact absurd h.symm hka
          · exact h
        simp only [List.map_cons, if_neg hka, List.lookup_cons]
        by_cases hx : x = ka
        · subst hx; simp [hka]
        · have : (x == ka) = false := by simpa using hx
          rw [this, ih hk']
  · rename_i hk
    by_cases hx : x = k
    · subst hx
      rw [List.lookup_append, if_pos rfl, List.lookup_eq_none_iff.mpr (by
        intro e he
        have : e.1 ≠ x := fun h => hk (List.mem_map.mpr ⟨e, he, h⟩)
        simpa using this.symm)]
      simp
    · have : (x == k) = false := by simpa using hx
      simp [List.lookup_append, List.lookup_cons, this, hx]

/-- The assignments succeed if all keys are there. -/
theorem hartImport_spec {ν : Type} : ∀ (ks : List String) (c : HartRefs ν), (∀ k ∈ ks, (c.model.lookup k).isSome) →
    ∃ c', hartImportLoop ks c = (c', .ok ()) ∧ c'.model = c.model ∧
      ∀ x, c'.attrs.lookup x = if x ∈ ks then c.model.lookup x else c.attrs.lookup x
  | [], c, _ => ⟨c, rfl, rfl, fun x => by simp⟩
  | k :: ks, c, h => by
    obtain ⟨v, hv⟩ := Option.isSome_iff_exists.mp (h k (by simp))
    obtain ⟨c', h1, h2, h3⟩ := hartImport_spec ks { c with attrs := orderedSet c.attrs k v }
      (fun k' hk' => h k' (by simp [hk']))
    refine ⟨c', by simp only [hartImportLoop, hv]; exact h1, h2, fun x => ?_⟩
    rw [h3 x]
    simp only [orderedSet_lookup]
    by_cases hx : x = k
    · subst hx; simp [hv]
    · simp [hx]

/-! ### Theorems -/

/-- Exporting leaves the object and all meters as they were, also if writing fails; the file is written if writing works, spoilt
if pickling fails and left alone if it cannot be opened; other files are left alone. Partial: the meters must be on
`HDFDataStore`s, and have different identifiers, as training makes sure (`C95_train`); without that, see
`C96_export_stops`. -/
theorem C96_export_partial (w : Writing) (c : CoRefs) (file : String) (h : ObjHeap) (disk : Disk CoRefs)
    (hid : ((c.look h).model.map (fun e => e.1.ident)).Nodup) (hh : ∀ e ∈ c.model, OnHdf h e.1) :
    (c.exportModel w file h disk).1.1 = h ∧
    (c.exportModel w file h disk).2 = w.outcome ∧
    (∀ f, f ≠ file → (c.exportModel w file h disk).1.2 f = disk f) ∧
    ((∃ e, w = .openFails e) → (c.exportModel w file h disk).1.2 = disk) ∧
    ((∃ e, w = .dumpFails e) → (c.exportModel w file h disk).1.2 file = some .junk) ∧
    (w = .works → ∃ h', Stripped (c.model.map Prod.fst) h h' ∧
      (c.exportModel w file h disk).1.2 file = some (.pickle c h')) := by
  have hn : (c.model.map Prod.fst).Nodup := by
    refine ids_nodup (fun i => (h.obj i).meter.ident) _ ?_
    simpa [CoRefs.look, List.map_map, Function.comp_def] using hid
  have hh' : ∀ i ∈ c.model.map Prod.fst, OnHdf h i := by
    intro i hi
    obtain ⟨e, he, rfl⟩ := List.mem_map.mp hi
    exact hh e he
  obtain ⟨h', hd, hs⟩ := detach_spec _ h hn hh'
  obtain ⟨w1, w2, w3, w4, w5⟩ := writePickle_spec w disk file c _ h h' hh' hs
  simp only [CoRefs.exportModel, hd]
  exact ⟨attach_undoes _ _ _ hs, w1, w2, w4, w5, fun hw => ⟨h', hs, w3 hw⟩⟩

/-- A meter that is not on an `HDFDataStore`, or appears for the second time, stops the export before anything is written; the
meters before it are left with file names for stores. -/
theorem C96_export_stops (w : Writing) (c : CoRefs) (file : String) (h : ObjHeap) (disk : Disk CoRefs)
    (pre post : List Nat) (x : Nat) (hm : c.model.map Prod.fst = pre ++ x :: post) (hn : pre.Nodup)
    (hh : ∀ i ∈ pre, OnHdf h i) (hx : x ∈ pre ∨ ¬ OnHdf h x) :
    (c.exportModel w file h disk).2 = .error .attributeError ∧
    (c.exportModel w file h disk).1.2 = disk ∧ Stripped pre h (c.exportModel w file h disk).1.1 := by
  obtain ⟨h', hd, hs⟩ := detach_stops pre x post h hn hh hx
  simp only [CoRefs.exportModel, hm, hd]
  exact ⟨trivial, trivial, hs⟩

/-- A trained object, exported, and imported into any other object in any other process: the same model, so the same estimates and
the same output for all mains; the meters are new objects, equal to the old ones, on the same files. -/
theorem C96_roundtrip_partial (opens : String → Option Err) (c other : CoRefs) (file : String) (h h2 : ObjHeap)
    (disk : Disk CoRefs) (hid : ((c.look h).model.map (fun e => e.1.ident)).Nodup) (hh : ∀ e ∈ c.model, OnHdf h e.1)
    (ho : ∀ e ∈ c.model, ∀ f, (h.obj e.1).store = .hdf f → opens f = none) :
    ∃ c3 h3, other.importModel opens file h2 (c.exportModel .works file h disk).1.2 = ((c3, h3), .ok ()) ∧
      c3.look h3 = c.look h ∧
      Copied h2.next h h3 (c.model.map Prod.fst) (c3.model.map Prod.fst) ∧
      (∀ i, i < h2.next → h3.obj i = h2.obj i) ∧
      ∀ (argsort : List Rat → List Nat) (sp : Int) (b : Nat) (mains : Gen PowerChunk) (store : DisagStore),
        (c3.look h3).disaggregate argsort sp b mains store = (c.look h).disaggregate argsort sp b mains store := by
  obtain ⟨_, _, _, _, _, hw⟩ := C96_export_partial .works c file h disk hid hh
  obtain ⟨h', hs, hf⟩ := hw rfl
  have hn : (c.model.map Prod.fst).Nodup := by
    refine ids_nodup (fun i => (h.obj i).meter.ident) _ ?_
    simpa [CoRefs.look, List.map_map, Function.comp_def] using hid
  obtain ⟨h1, h3, l1, l2, l3, l4⟩ := load_copies opens _ file c (c.model.map Prod.fst) h h' h2 hn
    (by
      intro i hi
      obtain ⟨e, he, rfl⟩ := List.mem_map.mp hi
      exact hh e he) hs hf
    (by
      intro i hi
      obtain ⟨e, he, rfl⟩ := List.mem_map.mp hi
      exact ho e he)
  have hids : (c.model.map (fun e => (h2.next + e.1, e.2))).map Prod.fst
      = (c.model.map Prod.fst).map (fun i => h2.next + i) := by
    simp [List.map_map, Function.comp_def]
  have himp : other.importModel opens file h2 (c.exportModel .works file h disk).1.2
      = ((⟨c.model.map (fun e => (h2.next + e.1, e.2)), c.table, c.minChunkLength⟩, h3), .ok ()) := by
    simp only [CoRefs.importModel, l1, hids, l2]
  have hlook : (⟨c.model.map (fun e => (h2.next + e.1, e.2)), c.table, c.minChunkLength⟩ : CoRefs).look h3 = c.look h := by
    simp only [CoRefs.look, List.map_map]
    congr 1
    refine List.map_congr_left (fun e he => ?_)
    have hcop := l3.2
    rw [List.map_map] at hcop
    have := (List.map_inj_left.mp hcop) e.1 (List.mem_map.mpr ⟨e, he, rfl⟩)
    simp only [Function.comp_apply] at this ⊢
    rw [this]
  refine ⟨_, _, himp, hlook, ?_, l4, fun _ _ _ _ _ => by rw [hlook]⟩
  rw [hids]
  exact l3

/-- Importing from a file that is not there, or that a failed export left behind, raises and changes nothing. -/
theorem C96_import_unreadable (opens : String → Option Err) (c : CoRefs) (file : String) (h : ObjHeap) (disk : Disk CoRefs)
    (hd : disk file = none ∨ disk file = some .junk) :
    (c.importModel opens file h disk).1 = (c, h) ∧
    (c.importModel opens file h disk).2 = .error (if disk file = none then .fileNotFound else .exception) := by
  rcases hd with hd | hd <;> simp [CoRefs.importModel, readPickle, hd]

/-- Importing what was exported raises the exception of the first store that cannot be opened. -/
theorem C96_import_store (opens : String → Option Err) (c other : CoRefs) (file : String) (h h2 : ObjHeap)
    (disk : Disk CoRefs) (hid : ((c.look h).model.map (fun e => e.1.ident)).Nodup) (hh : ∀ e ∈ c.model, OnHdf h e.1)
    (pre post : List (Nat × List Int)) (x : Nat × List Int) (hm : c.model = pre ++ x :: post)
    (ho : ∀ e ∈ pre, ∀ f, (h.obj e.1).store = .hdf f → opens f = none) (f : String) (e : Err)
    (hx : (h.obj x.1).store = .hdf f) (hf : opens f = some e) :
    (other.importModel opens file h2 (c.exportModel .works file h disk).1.2).2 = .error e := by
  obtain ⟨_, _, _, _, _, hw⟩ := C96_export_partial .works c file h disk hid hh
  obtain ⟨h', hs, hfile⟩ := hw rfl
  have hn : (c.model.map Prod.fst).Nodup := by
    refine ids_nodup (fun i => (h.obj i).meter.ident) _ ?_
    simpa [CoRefs.look, List.map_map, Function.comp_def] using hid
  have hstop := reopen_stops opens (pre.map (fun e => h2.next + e.1)) (h2.next + x.1) (post.map (fun e => h2.next + e.1))
    ⟨h2.next + h'.next, fun i => if i < h2.next then h2.obj i else h'.obj (i - h2.next)⟩ f e
    (by
      have := List.Nodup.map (f := fun i => h2.next + i) (fun a b hab => by simpa using hab) hn
      rw [hm] at this
      simpa [List.map_map, Function.comp_def] using this)
    (by
      intro j hj
      obtain ⟨a, ha, rfl⟩ := List.mem_map.mp hj
      obtain ⟨g, hg⟩ := hh a (by rw [hm]; simp [ha])
      refine ⟨g, ?_, ho a ha g hg⟩
      simpa using hs.2.2.1 a.1 (List.mem_map.mpr ⟨a, by rw [hm]; simp [ha], rfl⟩) g hg)
    (by simpa using hs.2.2.1 x.1 (List.mem_map.mpr ⟨x, by rw [hm]; simp, rfl⟩) f hx) hf
  have hids : (c.model.map (fun e => (h2.next + e.1, e.2))).map Prod.fst
      = pre.map (fun e => h2.next + e.1) ++ (h2.next + x.1) :: post.map (fun e => h2.next + e.1) := by
    rw [hm]
    simp [List.map_map, Function.comp_def]
  simp only [CoRefs.importModel, readPickle, hfile, hids]
  revert hstop
  cases hr : reopenStores opens (pre.map (fun e => h2.next + e.1) ++ (h2.next + x.1) :: post.map (fun e => h2.next + e.1))
    ⟨h2.next + h'.next, fun i => if i < h2.next then h2.obj i else h'.obj (i - h2.next)⟩ with
  | mk h3 r =>
    intro hstop
    simp only at hstop
    subst hstop
    rfl

/-- Importing a pickle with a meter whose store is not the name of a file is a `TypeError`, if the stores before it can be opened. -/
theorem C96_import_no_name (opens : String → Option Err) (c : CoRefs) (file : String) (h : ObjHeap) (disk : Disk CoRefs) (v : CoRefs)
    (objs : ObjHeap) (hd : disk file = some (.pickle v objs)) (hn : (v.model.map Prod.fst).Nodup)
    (pre post : List (Nat × List Int)) (x : Nat × List Int) (hm : v.model = pre ++ x :: post)
    (hpre : ∀ e ∈ pre, ∃ f, (objs.obj e.1).store = .text f ∧ opens f = none) (hx : ∀ f, (objs.obj x.1).store ≠ .text f) :
    (c.importModel opens file h disk).2 = .error .typeError := by
  have hstop := reopen_no_name opens (pre.map (fun e => h.next + e.1)) (h.next + x.1) (post.map (fun e => h.next + e.1))
    ⟨h.next + objs.next, fun i => if i < h.next then h.obj i else objs.obj (i - h.next)⟩
    (by
      have := List.Nodup.map (f := fun i => h.next + i) (fun a b hab => by simpa using hab) hn
      rw [hm] at this
      simpa [List.map_map, Function.comp_def] using this)
    (by
      intro j hj
      obtain ⟨a, ha, rfl⟩ := List.mem_map.mp hj
      obtain ⟨g, hg, hog⟩ := hpre a ha
      exact ⟨g, by simpa using hg, hog⟩)
    (by simpa using hx)
  have hids : (v.model.map (fun e => (h.next + e.1, e.2))).map Prod.fst
      = pre.map (fun e => h.next + e.1) ++ (h.next + x.1) :: post.map (fun e => h.next + e.1) := by
    rw [hm]
    simp [List.map_map, Function.comp_def]
  simp only [CoRefs.importModel, readPickle, hd, hids]
  revert hstop
  cases hr : reopenStores opens (pre.map (fun e => h.next + e.1) ++ (h.next + x.1) :: post.map (fun e => h.next + e.1))
    ⟨h.next + objs.next, fun i => if i < h.next then h.obj i else objs.obj (i - h.next)⟩ with
  | mk h3 r =>
    intro hstop
    simp only at hstop
    subst hstop
    rfl

/-- An import that raises because a store cannot be opened has replaced `model` but not the table of combinations and the minimal
length; objects that were there before are as they were. -/
theorem C96_import_interrupted (opens : String → Option Err) (c : CoRefs) (file : String) (h : ObjHeap) (disk : Disk CoRefs)
    (v : CoRefs) (objs : ObjHeap) (hd : disk file = some (.pickle v objs)) (e : Err)
    (hr : (c.importModel opens file h disk).2 = .error e) :
    (c.importModel opens file h disk).1.1.table = c.table ∧
    (c.importModel opens file h disk).1.1.minChunkLength = c.minChunkLength ∧
    ((c.importModel opens file h disk).1.1.look (c.importModel opens file h disk).1.2).model = (v.look objs).model ∧
    ∀ i, i < h.next → (c.importModel opens file h disk).1.2.obj i = h.obj i := by
  simp only [CoRefs.importModel, readPickle, hd] at hr ⊢
  obtain ⟨f1, f2, f3⟩ := reopen_frame opens ((v.model.map (fun e => (h.next + e.1, e.2))).map Prod.fst)
    ⟨h.next + objs.next, fun i => if i < h.next then h.obj i else objs.obj (i - h.next)⟩
  split at hr
  · rename_i h2 e' heq
    rw [heq] at f1 f2 f3
    refine ⟨rfl, rfl, ?_, ?_⟩
    · simp only [CoRefs.look, List.map_map]
      refine List.map_congr_left (fun a _ => ?_)
      simp only [Function.comp_apply]
      rw [f2]
      simp
    · intro i hi
      show h2.obj i = _
      rw [f3 i (by
        intro hm
        simp only [List.map_map, List.mem_map, Function.comp_apply] at hm
        obtain ⟨a, _, ha⟩ := hm
        omega)]
      simp [hi]
  · simp at hr

/-- The same for `FHMM`: exporting leaves the object and all meters as they were, also if writing fails. Partial: for meters with
different identifiers on `HDFDataStore`s. -/
theorem C96_fhmm_export_partial {γ : Type} (w : Writing) (t : FhmmTrained γ) (file : String) (h : ObjHeap)
    (disk : Disk (FhmmTrained γ)) (hid : (t.individual.map (fun e => (h.obj e.1).meter.ident)).Nodup)
    (hh : ∀ e ∈ t.individual, OnHdf h e.1) :
    (FhmmRefs.exportModel w (some t) file h disk).1.1 = some t ∧
    (FhmmRefs.exportModel w (some t) file h disk).1.2.1 = h ∧
    (FhmmRefs.exportModel w (some t) file h disk).2 = w.outcome ∧
    (∀ f, f ≠ file → (FhmmRefs.exportModel w (some t) file h disk).1.2.2 f = disk f) ∧
    ((∃ e, w = .openFails e) → (FhmmRefs.exportModel w (some t) file h disk).1.2.2 = disk) ∧
    ((∃ e, w = .dumpFails e) → (FhmmRefs.exportModel w (some t) file h disk).1.2.2 file = some .junk) ∧
    (w = .works → ∃ h', Stripped (t.individual.map Prod.fst) h h' ∧
      (FhmmRefs.exportModel w (some t) file h disk).1.2.2 file = some (.pickle { t with meters := none } h')) := by
  have hn : (t.individual.map Prod.fst).Nodup := by
    refine ids_nodup (fun i => (h.obj i).meter.ident) _ ?_
    simpa [List.map_map, Function.comp_def] using hid
  have hh' : ∀ i ∈ t.individual.map Prod.fst, OnHdf h i := by
    intro i hi
    obtain ⟨e, he, rfl⟩ := List.mem_map.mp hi
    exact hh e he
  obtain ⟨h', hd, hs⟩ := detach_spec _ h hn hh'
  obtain ⟨w1, w2, w3, w4, w5⟩ := writePickle_spec w disk file { t with meters := none } _ h h' hh' hs
  simp only [FhmmRefs.exportModel, hd]
  exact ⟨trivial, attach_undoes _ _ _ hs, w1, w2, w4, w5, fun hw => ⟨h', hs, w3 hw⟩⟩

/-- A meter that is not on an `HDFDataStore` stops the export of an `FHMM` before anything is written: the object is left without
its list of meters, and the meters before it with file names for stores. -/
theorem C96_fhmm_export_stops {γ : Type} (w : Writing) (t : FhmmTrained γ) (file : String) (h : ObjHeap)
    (disk : Disk (FhmmTrained γ)) (pre post : List Nat) (x : Nat) (hm : t.individual.map Prod.fst = pre ++ x :: post)
    (hn : pre.Nodup) (hh : ∀ i ∈ pre, OnHdf h i) (hx : ¬ OnHdf h x) :
    (FhmmRefs.exportModel w (some t) file h disk).2 = .error .attributeError ∧
    (FhmmRefs.exportModel w (some t) file h disk).1.1 = some { t with meters := none } ∧
    (FhmmRefs.exportModel w (some t) file h disk).1.2.2 = disk ∧
    Stripped pre h (FhmmRefs.exportModel w (some t) file h disk).1.2.1 := by
  obtain ⟨h', hd, hs⟩ := detach_stops pre x post h hn hh (Or.inr hx)
  simp only [FhmmRefs.exportModel, hm, hd]
  exact ⟨trivial, trivial, trivial, hs⟩

/-- A trained `FHMM`, exported, and imported into any other object in any other process: the same combined model and the same
model for every meter, in the same order; the meters are new objects, equal to the old ones, on the same files. -/
theorem C96_fhmm_roundtrip_partial {γ : Type} (opens : String → Option Err) (t : FhmmTrained γ) (other : FhmmRefs γ)
    (file : String) (h h2 : ObjHeap) (disk : Disk (FhmmTrained γ))
    (hid : (t.individual.map (fun e => (h.obj e.1).meter.ident)).Nodup) (hh : ∀ e ∈ t.individual, OnHdf h e.1)
    (ho : ∀ e ∈ t.individual, ∀ f, (h.obj e.1).store = .hdf f → opens f = none) :
    ∃ t3 h3, other.importModel opens file h2 (FhmmRefs.exportModel .works (some t) file h disk).1.2.2
        = ((some t3, h3), .ok ()) ∧
      t3.model = t.model ∧
      t3.individual.map (fun e => (h3.obj e.1, e.2)) = t.individual.map (fun e => (h.obj e.1, e.2)) ∧
      t3.meters = some (t3.individual.map Prod.fst) ∧
      (∀ e ∈ t3.individual, h2.next ≤ e.1) ∧ ∀ i, i < h2.next → h3.obj i = h2.obj i := by
  obtain ⟨_, _, _, _, _, _, hw⟩ := C96_fhmm_export_partial .works t file h disk hid hh
  obtain ⟨h', hs, hf⟩ := hw rfl
  have hn : (t.individual.map Prod.fst).Nodup := by
    refine ids_nodup (fun i => (h.obj i).meter.ident) _ ?_
    simpa [List.map_map, Function.comp_def] using hid
  obtain ⟨h1, h3, l1, l2, l3, l4⟩ := load_copies opens _ file { t with meters := none } (t.individual.map Prod.fst) h h' h2 hn
    (by
      intro i hi
      obtain ⟨e, he, rfl⟩ := List.mem_map.mp hi
      exact hh e he) hs hf
    (by
      intro i hi
      obtain ⟨e, he, rfl⟩ := List.mem_map.mp hi
      exact ho e he)
  have hids : (t.individual.map (fun e => (h2.next + e.1, e.2))).map Prod.fst
      = (t.individual.map Prod.fst).map (fun i => h2.next + i) := by
    simp [List.map_map, Function.comp_def]
  have himp : other.importModel opens file h2 (FhmmRefs.exportModel .works (some t) file h disk).1.2.2
      = ((some ⟨t.model, t.individual.map (fun e => (h2.next + e.1, e.2)),
          some ((t.individual.map (fun e => (h2.next + e.1, e.2))).map Prod.fst)⟩, h3), .ok ()) := by
    simp only [FhmmRefs.importModel, l1, hids, l2]
  refine ⟨_, _, himp, rfl, ?_, rfl, ?_, l4⟩
  · rw [List.map_map]
    refine List.map_congr_left (fun e he => ?_)
    have hcop := l3.2
    rw [List.map_map] at hcop
    have := (List.map_inj_left.mp hcop) e.1 (List.mem_map.mpr ⟨e, he, rfl⟩)
    simp only [Function.comp_apply] at this ⊢
    rw [this]
  · intro e he
    obtain ⟨a, _, rfl⟩ := List.mem_map.mp he
    exact Nat.le_add_right _ _

/-- What does not work with an `FHMM`: exporting before training, and importing from a file that is not there or spoilt, raise and
change nothing; an import that raises because a store cannot be opened has replaced the models but not `meters`. -/
theorem C96_fhmm_failures {γ : Type} (opens : String → Option Err) (w : Writing) (c : FhmmRefs γ) (file : String) (h : ObjHeap)
    (disk : Disk (FhmmTrained γ)) :
    FhmmRefs.exportModel w none file h disk = ((none, h, disk), .error .attributeError) ∧
    (disk file = none → c.importModel opens file h disk = ((c, h), .error .fileNotFound)) ∧
    (disk file = some .junk → c.importModel opens file h disk = ((c, h), .error .exception)) ∧
    (∀ v objs e, disk file = some (.pickle v objs) → (c.importModel opens file h disk).2 = .error e →
      (∃ t, (c.importModel opens file h disk).1.1 = some t ∧ t.model = v.model ∧
        t.individual.map (fun a => (((c.importModel opens file h disk).1.2.obj a.1).meter, a.2))
          = v.individual.map (fun a => ((objs.obj a.1).meter, a.2)) ∧
        t.meters = c.bind FhmmTrained.meters) ∧
      ∀ i, i < h.next → (c.importModel opens file h disk).1.2.obj i = h.obj i) := by
  refine ⟨rfl, fun hd => ?_, fun hd => ?_, ?_⟩
  · simp only [FhmmRefs.importModel, readPickle, hd]
  · simp only [FhmmRefs.importModel, readPickle, hd]
  · intro v objs e hd hr
    simp only [FhmmRefs.importModel, readPickle, hd] at hr ⊢
    obtain ⟨f1, f2, f3⟩ := reopen_frame opens ((v.individual.map (fun e => (h.next + e.1, e.2))).map Prod.fst)
      ⟨h.next + objs.next, fun i => if i < h.next then h.obj i else objs.obj (i - h.next)⟩
    split at hr
    · rename_i h2 e' heq
      rw [heq] at f1 f2 f3
      refine ⟨⟨_, rfl, rfl, ?_, rfl⟩, ?_⟩
      · simp only [List.map_map]
        refine List.map_congr_left (fun a _ => ?_)
        simp only [Function.comp_apply]
        rw [f2]
        simp
      · intro i hi
        show h2.obj i = _
        rw [f3 i (by
          intro hm
          simp only [List.map_map, List.mem_map, Function.comp_apply] at hm
          obtain ⟨a, _, ha⟩ := hm
          omega)]
        simp [hi]
    · simp at hr

/-- A trained `Hart85`, exported and imported into any other object: the same dictionary, and the attributes that
disaggregation reads are those of training. -/
theorem C96_hart {ν : Type} (columns threshold noise steady transients pairs centroids : ν) (other : HartRefs ν) (file : String)
    (h h2 : ObjHeap) (disk : Disk (List (String × ν))) :
    ∃ c3, other.importModel file h2
        ((HartRefs.trained columns threshold noise steady transients pairs centroids).exportModel .works file h disk).1
        = (c3, .ok ()) ∧
      c3.model = (HartRefs.trained columns threshold noise steady transients pairs centroids).model ∧
      (∀ k, k ≠ "pair_df" → k ∈ ((HartRefs.trained columns threshold noise steady transients pairs centroids).attrs.map Prod.fst) →
        c3.attrs.lookup k = (HartRefs.trained columns threshold noise steady transients pairs centroids).attrs.lookup k) ∧
      c3.attrs.lookup "pair_df" = other.attrs.lookup "pair_df" := by
  have hex : ((HartRefs.trained columns threshold noise steady transients pairs centroids).exportModel .works file h disk).1 file
      = some (.pickle (HartRefs.trained columns threshold noise steady transients pairs centroids).model h) := by
    simp [HartRefs.exportModel, writePickle]
  obtain ⟨c', h1, h2, h3⟩ := hartImport_spec hartKeys
    { other with model := (HartRefs.trained columns threshold noise steady transients pairs centroids).model }
    (by intro k hk; simp [hartKeys] at hk; rcases hk with rfl | rfl | rfl | rfl | rfl | rfl <;> rfl)
  refine ⟨c', ?_, h2, ?_, ?_⟩
  · simp only [HartRefs.importModel, readPickle, hex]
    exact h1
  · intro k hk hm
    rw [h3 k]
    simp only [HartRefs.trained, List.map_cons, List.map_nil, List.mem_cons, List.not_mem_nil, or_false] at hm
    rcases hm with rfl | rfl | rfl | rfl | rfl | rfl | rfl <;> first | rfl | exact absurd rfl hk
  · rw [h3]
    rfl

/-- A model that was never trained can be exported, but importing it raises `KeyError`. -/
theorem C96_hart_untrained {ν : Type} (other : HartRefs ν) (attrs : List (String × ν)) (file : String)
    (h h2 : ObjHeap) (disk : Disk (List (String × ν))) :
    ((⟨[], attrs⟩ : HartRefs ν).exportModel .works file h disk).2 = .ok () ∧
    other.importModel file h2 ((⟨[], attrs⟩ : HartRefs ν).exportModel .works file h disk).1
      = (⟨[], other.attrs⟩, .error .keyError) := by
  simp [HartRefs.exportModel, HartRefs.importModel, writePickle, readPickle, hartImportLoop, hartKeys]

/-! ### Examples and counterexamples -/

/-- Two meters of house 1. -/
def exportFridge : SubMeter := ⟨5, 1, "REDD", [("fridge", 1)], none⟩
def exportKettle : SubMeter := ⟨6, 1, "REDD", [("kettle", 1)], some "kitchen"⟩

/-- Both on HDF files. -/
def exportHeap : ObjHeap :=
  ⟨2, fun i => if i = 0 then ⟨exportFridge, .hdf "redd.h5"⟩ else ⟨exportKettle, .hdf "redd.h5"⟩⟩

/-- The second on a CSV store. -/
def exportMixed : ObjHeap :=
  ⟨2, fun i => if i = 0 then ⟨exportFridge, .hdf "redd.h5"⟩ else ⟨exportKettle, .other 0⟩⟩

def exportTrained : CoRefs := ⟨[(0, [0, 100]), (1, [0, 2000])], none, 100⟩

example : ((exportTrained.look exportHeap).model.map (fun e => e.1.ident)).Nodup ∧
    (∀ e ∈ exportTrained.model, OnHdf exportHeap e.1) ∧
    (∀ e ∈ exportTrained.model, ∀ f, (exportHeap.obj e.1).store = .hdf f → (fun _ : String => (none : Option Err)) f = none) := by
  refine ⟨by decide, ?_, by simp⟩
  intro e he
  simp [exportTrained] at he
  rcases he with rfl | rfl
  · exact ⟨"redd.h5", rfl⟩
  · exact ⟨"redd.h5", rfl⟩

example : exportTrained.model.map Prod.fst = [0] ++ 1 :: [] ∧ ([0] : List Nat).Nodup ∧
    (∀ i ∈ [0], OnHdf exportMixed i) ∧ ¬ OnHdf exportMixed 1 := by
  refine ⟨rfl, by decide, ?_, ?_⟩
  · intro i hi
    simp at hi
    subst hi
    exact ⟨"redd.h5", rfl⟩
  · rintro ⟨f, hf⟩
    simp [exportMixed] at hf

/-- An export that fails because of one meter leaves another meter without its store. -/
theorem C96_export_counterexample :
    ∃ (c : CoRefs) (h : ObjHeap) (disk : Disk CoRefs), OnHdf h 0 ∧
      (c.exportModel .works "model.pickle" h disk).2 = .error .attributeError ∧
      ((c.exportModel .works "model.pickle" h disk).1.1.obj 0).store = .text "redd.h5" := by
  refine ⟨exportTrained, exportMixed, fun _ => none, ⟨"redd.h5", rfl⟩, ?_, ?_⟩ <;> decide

/-- The same for `FHMM`, which also forgets its meters. -/
theorem C96_fhmm_export_counterexample :
    ∃ (t : FhmmTrained Nat) (h : ObjHeap) (disk : Disk (FhmmTrained Nat)), t.meters = some [0, 1] ∧
      (FhmmRefs.exportModel .works (some t) "model.pickle" h disk).2 = .error .attributeError ∧
      (FhmmRefs.exportModel .works (some t) "model.pickle" h disk).1.1 = some { t with meters := none } ∧
      ((FhmmRefs.exportModel .works (some t) "model.pickle" h disk).1.2.1.obj 0).store = .text "redd.h5" := by
  refine ⟨⟨7, [(0, 1), (1, 2)], some [0, 1]⟩, exportMixed, fun _ => none, rfl, ?_, ?_, ?_⟩ <;> decide

/-- After an import that failed, an object disaggregates with the states it had before: the estimate is 100 W for an appliance
whose only states are 0 W and 7 W. -/
theorem C96_import_counterexample :
    ∃ (c : CoRefs) (h : ObjHeap) (disk : Disk CoRefs) (opens : String → Option Err) (c3 : CoRefs) (h3 : ObjHeap),
      c.importModel opens "model.pickle" h disk = ((c3, h3), .error .fileNotFound) ∧
      (c3.look h3).model = [(exportFridge, [0, 7])] ∧
      ((c3.look h3).disaggregateChunk (fun _ => [0, 1]) [some 100]).2 = .ok [[100]] := by
  refine ⟨⟨[(0, [0, 100])], some ⟨1, [[0], [100]]⟩, 1⟩, exportHeap,
    fun f => if f = "model.pickle" then some (.pickle ⟨[(0, [0, 7])], none, 1⟩ ⟨1, fun _ => ⟨exportFridge, .text "gone.h5"⟩⟩)
      else none, fun _ => some .fileNotFound, _, _, rfl, ?_, ?_⟩ <;> decide +kernel

end Nilmtk
