import Verif.Props.Convert
import Verif.Model.Redd
import Verif.Props.Key
/-!
C88: conversion of REDD and UK-DALE stores the readings of every channel file under the key of its house and channel.
-/
namespace Nilmtk

/-! ### Specification -/

/-- What `DataFrame.sort_index` guarantees: the same rows in the order of their times, unchanged if they are so already. -/
structure SortsByTime {α : Type} (sort : List (Int × α) → List (Int × α)) : Prop where
  perm : ∀ l, (sort l).Perm l
  sorted : ∀ l, (sort l).Pairwise (fun a b => a.1 ≤ b.1)
  keep : ∀ l, l.Pairwise (fun a b => a.1 ≤ b.1) → sort l = l

/-- `/building<h>/elec/meter<c>`. -/
def meterKey (h c : Nat) : Str := "/building".toList ++ formatNat h ++ "/elec/meter".toList ++ formatNat c

/-- There is a file `house_<h>/<name>` with these rows. -/
def HouseFile {α : Type} (tree : RawTree α) (h : Nat) (name : Str) (rows : RawRows α) : Prop :=
  ∃ files, ("house_".toList ++ formatNat h, some files) ∈ tree ∧ (name, some rows) ∈ files

/-- There is a file `house_<h>/channel_<c>.dat` with these rows. -/
def ChannelFile {α : Type} (tree : RawTree α) (h c : Nat) (rows : RawRows α) : Prop :=
  HouseFile tree h ("channel_".toList ++ formatNat c ++ ".dat".toList) rows

/-- No name occurs twice in a directory. -/
def UniqueNames {α : Type} (tree : RawTree α) : Prop :=
  (tree.map Prod.fst).Nodup ∧ ∀ name files, (name, some files) ∈ tree → (files.map Prod.fst).Nodup

/-- A row of a file with its time in nanoseconds. -/
def inNanoseconds {α : Type} (rows : RawRows α) : List (Int × α) := rows.map (fun r => (r.1 * 1000000000, r.2))

/-- The rows `out` are what should be stored of a file. -/
structure StoresRows {α : Type} (sorted drop : Bool) (file : RawRows α) (out : List (Int × α)) : Prop where
  /-- in the order of time, or that of the file -/
  order : sorted = true → out.Pairwise (fun a b => a.1 ≤ b.1)
  asFile : sorted = false → out.Sublist (inNanoseconds file)
  /-- every row exactly as often as in the file -/
  all : drop = false → out.Perm (inNanoseconds file)
  /-- or one row for every time -/
  once : drop = true → (out.map Prod.fst).Nodup
  times : ∀ t, t ∈ out.map Prod.fst ↔ t ∈ (inNanoseconds file).map Prod.fst
  rows : ∀ r ∈ out, r ∈ inNanoseconds file
  /-- which is the first, if the file is in order of time or not to be sorted -/
  first : drop = true → (sorted = false ∨ file.Pairwise (fun a b => a.1 ≤ b.1)) →
    ∀ r ∈ out, (inNanoseconds file).find? (fun x => x.1 == r.1) = some r

/-! ### Names -/

theorem text_meterKey (h c : Nat) : Key.text ⟨(h : Int), some (c : Int), none⟩ = meterKey h c := by
  unfold Key.text meterKey
  simp only [Int.toNat_natCast, List.append_assoc]

theorem meterKey_inj {h c h' c' : Nat} (h1 : 1 ≤ h) (c1 : 1 ≤ c) (h1' : 1 ≤ h') (c1' : 1 ≤ c')
    (e : meterKey h c = meterKey h' c') : h = h' ∧ c = c' := by
  have hr : ∀ a b : Nat, 1 ≤ a → 1 ≤ b → Key.repr ⟨a, some (b : Int), none⟩ = .ok (meterKey a b) := by
    intro a b ha hb
    unfold Key.repr Key.check
    rw [if_pos ⟨by simp only; omega, by intro m hm; cases hm; omega⟩]
    simp only [text_meterKey]
  have := C37_injective ⟨h, some (c : Int), none⟩ ⟨h', some (c' : Int), none⟩ (by simp only; omega)
    (by intro m hm; cases hm; omega) (by simp only; omega) (by intro m hm; cases hm; omega)
    (by rw [hr h c h1 c1, hr h' c' h1' c1', e])
  simp only [Option.some.injEq] at this
  omega

theorem afterPrefix_append (p s : Str) : afterPrefix p (p ++ s) = some s := by
  induction p with
  | nil => cases s <;> rfl
  | cons c p ih => rw [List.cons_append, afterPrefix, if_pos rfl, ih]

theorem afterPrefix_some {p s t : Str} (h : afterPrefix p s = some t) : s = p ++ t := by
  induction p generalizing s with
  | nil => cases s <;> (simp [afterPrefix] at h; simp [h])
  | cons c p ih =>
    cases s with
    | nil => simp [afterPrefix] at h
    | cons d s =>
      rw [afterPrefix] at h
      split at h
      · rename_i hc
        rw [ih h, hc, List.cons_append]
      · cases h

theorem digitVal_some {c : Char} {d : Nat} (h : digitVal c = some d) : d < 10 ∧ c = digitChar d := by
  unfold digitVal at h
  split at h
  · rename_i hc
    obtain ⟨h1, h2⟩ := hc
    have h1' : '0'.toNat ≤ c.toNat := h1
    have h2' : c.toNat ≤ '9'.toNat := h2
    have e0 : '0'.toNat = 48 := rfl
    have e9 : '9'.toNat = 57 := rfl
    cases h
    refine ⟨by omega, ?_⟩
    unfold digitChar
    rw [show '0'.toNat + (c.toNat - '0'.toNat) = c.toNat by omega, Char.ofNat_toNat]
  · cases h

theorem formatNat_digit {d : Nat} (h : d < 10) : formatNat d = [digitChar d] := by
  rw [formatNat, if_pos h]

theorem formatNat_two {n : Nat} (h : 10 ≤ n) (h' : n < 100) : formatNat n = [digitChar (n / 10), digitChar (n % 10)] := by
  rw [formatNat, if_neg (by omega), formatNat_digit (by omega)]
  rfl

theorem matchHouse_iff (s : Str) (n : Nat) : matchHouse s = some n ↔ n < 10 ∧ s = houseName n := by
  unfold matchHouse houseName
  constructor
  · intro h
    split at h
    · rename_i d hd
      obtain ⟨h1, h2⟩ := digitVal_some h
      exact ⟨h1, by rw [afterPrefix_some hd, h2, formatNat_digit h1]⟩
    · cases h
  · rintro ⟨h1, rfl⟩
    rw [afterPrefix_append, formatNat_digit h1]
    exact digitVal_digitChar n h1

theorem matchChannel_name {c : Nat} (h : c < 100) : matchChannel (channelName c) = some c := by
  unfold matchChannel channelName
  rw [List.append_assoc, afterPrefix_append]
  by_cases hc : c < 10
  · rw [formatNat_digit hc]
    exact digitVal_digitChar c hc
  · rw [formatNat_two (by omega) h]
    change (match digitVal (digitChar (c / 10)), digitVal (digitChar (c % 10)) with
      | some m, some n => some (m * 10 + n)
      | _, _ => none) = some c
    rw [digitVal_digitChar _ (by omega), digitVal_digitChar _ (by omega)]
    simp only [Option.some.injEq]
    omega

theorem matchChannel_lt {s : Str} {c : Nat} (h : matchChannel s = some c) : c < 100 := by
  unfold matchChannel at h
  split at h
  · have := (digitVal_some h).1
    omega
  · split at h
    · rename_i hm hn
      have h1 := (digitVal_some hm).1
      have h2 := (digitVal_some hn).1
      cases h
      omega
    · cases h
  · cases h

theorem matchChannel_prefix {s : Str} {c : Nat} (h : matchChannel s = some c) : "channel_".toList <+: s := by
  unfold matchChannel at h
  split at h
  · rename_i he
    exact ⟨_, (afterPrefix_some he).symm⟩
  · rename_i he
    exact ⟨_, (afterPrefix_some he).symm⟩
  · cases h

theorem mem_matchingInts {rx : Str → Option Nat} {names : List Str} {n : Nat} :
    n ∈ matchingInts rx names ↔ ∃ s ∈ names, rx s = some n := by
  unfold matchingInts
  rw [(List.perm_insertionSort _ _).mem_iff, List.mem_filterMap]

/-! ### Directories -/

theorem lookup_nodup_iff {κ ν : Type} [BEq κ] [LawfulBEq κ] {d : List (κ × ν)} (h : (d.map Prod.fst).Nodup) (k : κ) (v : ν) :
    d.lookup k = some v ↔ (k, v) ∈ d := by
  induction d with
  | nil => simp
  | cons e d ih =>
    obtain ⟨a, b⟩ := e
    rw [List.map_cons, List.nodup_cons] at h
    rw [List.lookup_cons, List.mem_cons]
    by_cases hk : k = a
    · subst hk
      simp only [beq_self_eq_true, Option.some.injEq, Prod.mk.injEq, true_and]
      constructor
      · rintro rfl; exact .inl rfl
      · rintro (rfl | hm)
        · rfl
        · exact absurd (List.mem_map_of_mem (f := Prod.fst) hm) h.1
    · rw [beq_eq_false_iff_ne.2 hk]
      simp only [Prod.mk.injEq, hk, false_and, false_or]
      exact ih h.2

theorem houseDir_iff {α : Type} {tree : RawTree α} (hu : UniqueNames tree) (name : Str)
    (files : List (Str × Option (RawRows α))) : houseDir tree name = some files ↔ (name, some files) ∈ tree := by
  unfold houseDir
  rw [← lookup_nodup_iff hu.1]
  cases tree.lookup name with
  | none => simp
  | some o => cases o <;> simp

theorem csvFile_iff {α : Type} {tree : RawTree α} (hu : UniqueNames tree) (h c : Nat) (rows : RawRows α) :
    csvFile tree h c = .ok rows ↔ ChannelFile tree h c rows := by
  unfold csvFile ChannelFile HouseFile
  have key : ∀ files : List (Str × Option (RawRows α)), (files.map Prod.fst).Nodup →
      ∀ name, (files.lookup name).join = some rows ↔ (name, some rows) ∈ files := by
    intro files hn name
    rw [← lookup_nodup_iff hn]
    cases files.lookup name with
    | none => simp
    | some o => cases o <;> simp
  constructor
  · intro e
    split at e
    · cases e
    · rename_i files hf
      have hf' := (houseDir_iff hu _ _).1 hf
      split at e
      · cases e
      · rename_i r hr
        cases e
        exact ⟨files, hf', (key files (hu.2 _ _ hf') _).1 hr⟩
  · rintro ⟨files, h1, h2⟩
    have h1' := (houseDir_iff hu _ _).2 h1
    have h2' := (key files (hu.2 _ _ h1) _).2 h2
    change houseDir tree (houseName h) = _ at h1'
    simp only [h1']
    have h3 : (files.lookup (channelName c)).join = some rows := h2'
    simp only [h3]

theorem csvFile_error {α : Type} {tree : RawTree α} {h c : Nat} {e : Err} (he : csvFile tree h c = .error e) :
    e = .assertionError := by
  unfold csvFile at he
  split at he
  · cases he; rfl
  · split at he
    · cases he; rfl
    · cases he

theorem mem_findAllHouses {α : Type} {tree : RawTree α} (hu : UniqueNames tree) (h : Nat) :
    h ∈ findAllHouses tree ↔ h < 10 ∧ ∃ files, houseDir tree (houseName h) = some files := by
  unfold findAllHouses
  rw [mem_matchingInts]
  constructor
  · rintro ⟨s, hs, hm⟩
    rw [matchHouse_iff] at hm
    obtain ⟨hlt, rfl⟩ := hm
    rw [List.mem_map] at hs
    obtain ⟨⟨n, o⟩, ho, hn⟩ := hs
    rw [List.mem_filter] at ho
    simp only at hn
    subst hn
    cases o with
    | none => simp at ho
    | some files => exact ⟨hlt, files, (houseDir_iff hu _ _).2 ho.1⟩
  · rintro ⟨hlt, files, hf⟩
    refine ⟨houseName h, ?_, (matchHouse_iff _ _).2 ⟨hlt, rfl⟩⟩
    rw [List.mem_map]
    exact ⟨(houseName h, some files), List.mem_filter.2 ⟨(houseDir_iff hu _ _).1 hf, rfl⟩, rfl⟩

theorem mem_chans {α : Type} {files : List (Str × Option (RawRows α))} {c : Nat} :
    c ∈ matchingInts matchChannel ((files.filter (fun e => e.2.isSome)).map Prod.fst) ↔
    ∃ name rows, (name, some rows) ∈ files ∧ matchChannel name = some c := by
  rw [mem_matchingInts]
  constructor
  · rintro ⟨s, hs, hm⟩
    rw [List.mem_map] at hs
    obtain ⟨⟨n, o⟩, ho, rfl⟩ := hs
    rw [List.mem_filter] at ho
    cases o with
    | none => simp at ho
    | some rows => exact ⟨_, rows, ho.1, hm⟩
  · rintro ⟨name, rows, hm, hc⟩
    exact ⟨name, List.mem_map.2 ⟨(name, some rows), List.mem_filter.2 ⟨hm, rfl⟩, rfl⟩, hc⟩

/-! ### Rows -/

theorem dropDups_spec {α : Type} (l : List (Int × α)) (seen : List Int) :
    (dropDups seen l).Sublist l ∧ ((dropDups seen l).map Prod.fst).Nodup ∧
    (∀ t, t ∈ (dropDups seen l).map Prod.fst ↔ t ∈ l.map Prod.fst ∧ t ∉ seen) ∧
    (∀ r ∈ dropDups seen l, l.find? (fun x => x.1 == r.1) = some r) := by
  induction l generalizing seen with
  | nil => simp [dropDups]
  | cons a l ih =>
    rw [dropDups]
    split
    · rename_i ha
      obtain ⟨i1, i2, i3, i4⟩ := ih seen
      refine ⟨i1.trans (List.sublist_cons_self _ _), i2, ?_, ?_⟩
      · intro t
        rw [i3, List.map_cons, List.mem_cons]
        constructor
        · rintro ⟨h1, h2⟩; exact ⟨.inr h1, h2⟩
        · rintro ⟨rfl | h1, h2⟩
          · exact absurd ha h2
          · exact ⟨h1, h2⟩
      · intro r hr
        have hne : a.1 ≠ r.1 := by
          intro he
          have := ((i3 r.1).1 (List.mem_map_of_mem (f := Prod.fst) hr)).2
          rw [← he] at this
          exact this ha
        rw [List.find?_cons_of_neg (by simpa using hne)]
        exact i4 r hr
    · rename_i ha
      obtain ⟨i1, i2, i3, i4⟩ := ih (a.1 :: seen)
      refine ⟨i1.cons_cons a, ?_, ?_, ?_⟩
      · rw [List.map_cons, List.nodup_cons]
        exact ⟨fun hm => ((i3 _).1 hm).2 List.mem_cons_self, i2⟩
      · intro t
        rw [List.map_cons, List.mem_cons, i3, List.map_cons, List.mem_cons, List.mem_cons, not_or]
        constructor
        · rintro (rfl | ⟨h1, h2, h3⟩)
          · exact ⟨.inl rfl, ha⟩
          · exact ⟨.inr h1, h3⟩
        · rintro ⟨rfl | h1, h2⟩
          · exact .inl rfl
          · by_cases he : t = a.1
            · exact .inl he
            · exact .inr ⟨h1, he, h2⟩
      · intro r hr
        rcases List.mem_cons.1 hr with rfl | hr
        · rw [List.find?_cons_of_pos (by simp)]
        · have hne : a.1 ≠ r.1 := by
            intro he
            have := ((i3 r.1).1 (List.mem_map_of_mem (f := Prod.fst) hr)).2
            exact this (by rw [← he]; exact List.mem_cons_self)
          rw [List.find?_cons_of_neg (by simpa using hne)]
          exact i4 r hr

theorem loadCsv_spec {α : Type} {sort : List (Int × α) → List (Int × α)} (hs : SortsByTime sort) {file : RawRows α}
    {columns : List (String × String)} {drop sorted : Bool} {t : RawTable α}
    (h : loadCsv sort file columns drop sorted = .ok t) : t.columns = columns ∧ StoresRows sorted drop file t.rows := by
  unfold loadCsv at h
  split at h
  · cases h
  · cases h
    refine ⟨rfl, ?_⟩
    change StoresRows sorted drop file (if drop then dropDups [] (if sorted then sort (inNanoseconds file) else
      inNanoseconds file) else (if sorted then sort (inNanoseconds file) else inNanoseconds file))
    have hmid : ∀ b : Bool, (if b then sort (inNanoseconds file) else inNanoseconds file).Perm (inNanoseconds file) := by
      intro b
      cases b
      · exact List.Perm.refl _
      · exact hs.perm _
    have hsorted : sorted = true →
        (if sorted then sort (inNanoseconds file) else inNanoseconds file).Pairwise (fun a b => a.1 ≤ b.1) := by
      rintro rfl
      exact hs.sorted _
    have hfile : file.Pairwise (fun a b => a.1 ≤ b.1) → (inNanoseconds file).Pairwise (fun a b => a.1 ≤ b.1) := by
      intro hp
      unfold inNanoseconds
      rw [List.pairwise_map]
      exact hp.imp (fun {a b} hab => by simp only; omega)
    obtain ⟨d1, d2, d3, d4⟩ := dropDups_spec (if sorted then sort (inNanoseconds file) else inNanoseconds file) []
    constructor
    · intro h
      cases drop
      · exact hsorted h
      · exact (hsorted h).sublist d1
    · intro h
      subst h
      cases drop
      · exact List.Sublist.refl _
      · exact d1
    · intro h
      subst h
      exact hmid sorted
    · intro h
      subst h
      exact d2
    · intro t
      cases drop
      · exact ((hmid sorted).map Prod.fst).mem_iff
      · rw [show (if true = true then dropDups [] (if sorted then sort (inNanoseconds file) else inNanoseconds file) else
          (if sorted then sort (inNanoseconds file) else inNanoseconds file)) = dropDups [] (if sorted then
          sort (inNanoseconds file) else inNanoseconds file) from rfl, d3]
        simp only [List.not_mem_nil, not_false_eq_true, and_true]
        exact ((hmid sorted).map Prod.fst).mem_iff
    · intro r hr
      cases drop
      · exact (hmid sorted).mem_iff.1 hr
      · exact (hmid sorted).mem_iff.1 (d1.subset hr)
    · intro h ho r hr
      subst h
      have hsame : (if sorted then sort (inNanoseconds file) else inNanoseconds file) = inNanoseconds file := by
        cases sorted
        · rfl
        · rcases ho with ho | ho
          · cases ho
          · exact hs.keep _ (hfile ho)
      have := d4 r hr
      rw [hsame] at this
      exact this

/-! ### The loops -/

theorem keyOfNumbers_ok {h c : Nat} {key : Key} (e : Key.ofNumbers (h : Int) (some (c : Int)) = .ok key) :
    1 ≤ h ∧ 1 ≤ c ∧ key.repr = .ok (meterKey h c) := by
  unfold Key.ofNumbers at e
  cases hc : Key.check ⟨(h : Int), some (c : Int), none⟩ with
  | error x => rw [hc] at e; cases e
  | ok u =>
    rw [hc] at e
    cases e
    refine ⟨?_, ?_, ?_⟩
    · unfold Key.check at hc
      split at hc
      · rename_i hx; have := hx.1; simp only at this; omega
      · cases hc
    · unfold Key.check at hc
      split at hc
      · rename_i hx; have := hx.2 _ rfl; omega
      · cases hc
    · rw [Key.repr, hc]
      simp only [text_meterKey]

theorem keyOfNumbers_total {h c : Nat} (hh : 1 ≤ h) (hc : 1 ≤ c) :
    ∃ key, Key.ofNumbers (h : Int) (some (c : Int)) = .ok key := by
  obtain ⟨k, hk, _⟩ := (C37_from_numbers (h : Int) (some (c : Int))).1
    ⟨by omega, by intro x hx; cases hx; omega⟩
  exact ⟨k, hk⟩

theorem convertChan_ok {α : Type} {cfg : RawConfig α} {tree : RawTree α} (hu : UniqueNames tree) {h c : Nat} {k : Str}
    {t : RawTable α} : convertChan cfg tree h c = .ok (k, t) ↔ 1 ≤ h ∧ 1 ≤ c ∧ k = meterKey h c ∧
      ∃ rows columns, ChannelFile tree h c rows ∧ cfg.mapping h c = .ok columns ∧
        loadCsv cfg.sort rows columns cfg.dropDuplicates cfg.sortIndex = .ok t := by
  constructor
  · intro e
    unfold convertChan at e
    split at e
    · cases e
    · rename_i key hkey
      obtain ⟨k1, k2, k3⟩ := keyOfNumbers_ok hkey
      split at e
      · cases e
      · rename_i columns hcol
        split at e
        · cases e
        · rename_i file hfile
          split at e
          · cases e
          · rename_i table htab
            rw [k3] at e
            cases e
            exact ⟨k1, k2, rfl, file, columns, (csvFile_iff hu _ _ _).1 hfile, hcol, htab⟩
  · rintro ⟨h1, c1, rfl, rows, columns, hf, hm, hl⟩
    obtain ⟨key, hkey⟩ := keyOfNumbers_total h1 c1
    have hr := (keyOfNumbers_ok hkey).2.2
    unfold convertChan
    simp only [hkey, hm, (csvFile_iff hu _ _ _).2 hf, hl, hr]

theorem convertChans_frame {α : Type} {cfg : RawConfig α} {tree : RawTree α} {h : Nat} (cs : List Nat) (st : RawStore α)
    (k : Str) : (convertChans cfg tree h cs st).1 k = st k ∨
      ∃ c ∈ cs, ∃ t, convertChan cfg tree h c = .ok (k, t) ∧ (convertChans cfg tree h cs st).1 k = some t := by
  induction cs generalizing st with
  | nil => exact .inl rfl
  | cons c cs ih =>
    rw [convertChans]
    cases hc : convertChan cfg tree h c with
    | error e => exact .inl rfl
    | ok p =>
      obtain ⟨k', t⟩ := p
      simp only
      rcases ih (st.put k' t) with hi | ⟨c', hc', t', h1, h2⟩
      · rw [hi, RawStore.put]
        by_cases hk : k = k'
        · subst hk
          exact .inr ⟨c, List.mem_cons_self, t, hc, by rw [if_pos rfl]⟩
        · exact .inl (if_neg hk)
      · exact .inr ⟨c', List.mem_cons_of_mem _ hc', t', h1, h2⟩

theorem convertChans_all {α : Type} {cfg : RawConfig α} {tree : RawTree α} (hu : UniqueNames tree) {h : Nat} (cs : List Nat)
    (st : RawStore α) (hn : (convertChans cfg tree h cs st).2 = none) :
    ∀ c ∈ cs, ∃ t, convertChan cfg tree h c = .ok (meterKey h c, t) ∧
      (convertChans cfg tree h cs st).1 (meterKey h c) = some t := by
  induction cs generalizing st with
  | nil => simp
  | cons c cs ih =>
    rw [convertChans] at hn ⊢
    cases hc : convertChan cfg tree h c with
    | error e => rw [hc] at hn; cases hn
    | ok p =>
      obtain ⟨k, t⟩ := p
      rw [hc] at hn
      simp only at hn ⊢
      obtain ⟨h1, c1, rfl, _⟩ := (convertChan_ok hu).1 hc
      intro c' hc'
      rcases List.mem_cons.1 hc' with rfl | hc'
      · refine ⟨t, hc, ?_⟩
        rcases convertChans_frame (cfg := cfg) (tree := tree) (h := h) cs (st.put (meterKey h c') t) (meterKey h c')
          with hi | ⟨c2, _, t2, e1, e2⟩
        · rw [hi, RawStore.put, if_pos rfl]
        · obtain ⟨_, c21, ek, _⟩ := (convertChan_ok hu).1 e1
          obtain ⟨_, rfl⟩ := meterKey_inj h1 c1 h1 c21 ek
          rw [hc] at e1
          cases e1
          exact e2
      · exact ih (st.put (meterKey h c) t) hn c' hc'

theorem convertHouses_frame {α : Type} {cfg : RawConfig α} {tree : RawTree α} (hs : List Nat) (st : RawStore α) (k : Str) :
    (convertHouses cfg tree hs st).1 k = st k ∨ ∃ h ∈ hs, ∃ chans, findAllChans tree h = .ok chans ∧ ∃ c ∈ chans, ∃ t,
      convertChan cfg tree h c = .ok (k, t) ∧ (convertHouses cfg tree hs st).1 k = some t := by
  induction hs generalizing st with
  | nil => exact .inl rfl
  | cons h hs ih =>
    rw [convertHouses]
    cases hc : findAllChans tree h with
    | error e => exact .inl rfl
    | ok chans =>
      simp only
      have hfr := convertChans_frame (cfg := cfg) (tree := tree) (h := h) chans st k
      cases hr : convertChans cfg tree h chans st with
      | mk st' e =>
        rw [hr] at hfr
        simp only at hfr
        have lift : (st' k = st k ∨ ∃ c ∈ chans, ∃ t, convertChan cfg tree h c = .ok (k, t) ∧ st' k = some t) →
            ∀ v, v = st' k → (v = st k ∨ ∃ h_1 ∈ h :: hs, ∃ chans, findAllChans tree h_1 = .ok chans ∧ ∃ c ∈ chans, ∃ t,
              convertChan cfg tree h_1 c = .ok (k, t) ∧ v = some t) := by
          intro hx v hv
          rcases hx with hx | ⟨c, c1, t, c2, c3⟩
          · exact .inl (hv.trans hx)
          · exact .inr ⟨h, List.mem_cons_self, chans, hc, c, c1, t, c2, hv.trans c3⟩
        cases e with
        | some e => exact lift hfr _ rfl
        | none =>
          simp only
          rcases ih st' with hi | ⟨h', hh', chans', x1, c, x2, t, x3, x4⟩
          · exact lift hfr _ hi
          · exact .inr ⟨h', List.mem_cons_of_mem _ hh', chans', x1, c, x2, t, x3, x4⟩

theorem convertHouses_all {α : Type} {cfg : RawConfig α} {tree : RawTree α} (hu : UniqueNames tree) (hs : List Nat)
    (st : RawStore α) (hn : (convertHouses cfg tree hs st).2 = none) :
    ∀ h ∈ hs, ∀ chans, findAllChans tree h = .ok chans → ∀ c ∈ chans, ∃ t,
      convertChan cfg tree h c = .ok (meterKey h c, t) ∧ (convertHouses cfg tree hs st).1 (meterKey h c) = some t := by
  induction hs generalizing st with
  | nil => simp
  | cons h hs ih =>
    rw [convertHouses] at hn ⊢
    cases hc : findAllChans tree h with
    | error e => rw [hc] at hn; cases hn
    | ok chans =>
      rw [hc] at hn
      simp only at hn ⊢
      have hall := convertChans_all (cfg := cfg) hu (h := h) chans st
      cases hr : convertChans cfg tree h chans st with
      | mk st' e =>
        rw [hr] at hn hall
        cases e with
        | some e => cases hn
        | none =>
          simp only at hn hall ⊢
          intro h' hh' chans' hch' c hcc
          rcases List.mem_cons.1 hh' with rfl | hh'
          · rw [hc] at hch'
            cases hch'
            obtain ⟨t, e1, e2⟩ := hall trivial c hcc
            refine ⟨t, e1, ?_⟩
            rcases convertHouses_frame (cfg := cfg) (tree := tree) hs st' (meterKey h' c) with
              hi | ⟨h2, _, _, _, c2, _, t2, x1, x2⟩
            · rw [hi, e2]
            · obtain ⟨a1, a2, ek, _⟩ := (convertChan_ok hu).1 x1
              obtain ⟨b1, b2, _⟩ := (convertChan_ok hu).1 e1
              obtain ⟨rfl, rfl⟩ := meterKey_inj b1 b2 a1 a2 ek
              rw [e1] at x1
              cases x1
              exact x2
          · exact ih st' hn h' hh' chans' hch' c hcc

/-! ### C88 -/

theorem convertRaw_all {α : Type} {cfg : RawConfig α} {tree : RawTree α} (hu : UniqueNames tree) {st st' : RawStore α}
    (h : convertRaw cfg (some tree) st = (st', none)) {house chan : Nat} (hh : house ≤ 9) (hc : chan ≤ 99)
    {rows : RawRows α} (hf : ChannelFile tree house chan rows) :
    1 ≤ house ∧ 1 ≤ chan ∧ ∃ columns t, cfg.mapping house chan = .ok columns ∧
      loadCsv cfg.sort rows columns cfg.dropDuplicates cfg.sortIndex = .ok t ∧ st' (meterKey house chan) = some t := by
  unfold convertRaw at h
  simp only at h
  have hx := convertHouses_all (cfg := cfg) hu (findAllHouses tree) st (by rw [h])
  rw [h] at hx
  have hf' := hf
  obtain ⟨files, f1, f2⟩ := hf'
  have hd := (houseDir_iff hu _ _).2 f1
  have hd' : houseDir tree (houseName house) = some files := hd
  obtain ⟨t, e1, e2⟩ := hx house ((mem_findAllHouses hu house).2 ⟨by omega, files, hd⟩) _
    (by unfold findAllChans; rw [hd']) chan (mem_chans.2 ⟨_, rows, f2, matchChannel_name (by omega)⟩)
  obtain ⟨a1, a2, _, rows', columns, b1, b2, b3⟩ := (convertChan_ok hu).1 e1
  have : rows' = rows := by
    have x1 := (csvFile_iff hu _ _ _).2 b1
    have x2 := (csvFile_iff hu _ _ _).2 hf
    rw [x1] at x2
    cases x2
    rfl
  subst this
  exact ⟨a1, a2, columns, t, b2, b3, e2⟩

/-- C88. After a conversion that raised nothing every file `house_<h>/channel_<c>.dat` with a house number of one digit and a
channel number of at most two is in the store, under the key of building `h` and meter `c`, with the columns of the mapping
and with its rows: in order of time if asked for, every row as often as in the file or one per time. -/
theorem C88_stored_partial {α : Type} {cfg : RawConfig α} (hs : SortsByTime cfg.sort) {tree : RawTree α} (hu : UniqueNames tree)
    {st st' : RawStore α} (h : convertRaw cfg (some tree) st = (st', none)) {house chan : Nat} (hh : house ≤ 9)
    (hc : chan ≤ 99) {rows : RawRows α} (hf : ChannelFile tree house chan rows) :
    ∃ t, st' (meterKey house chan) = some t ∧ cfg.mapping house chan = .ok t.columns ∧
      StoresRows cfg.sortIndex cfg.dropDuplicates rows t.rows := by
  obtain ⟨_, _, columns, t, h1, h2, h3⟩ := convertRaw_all hu h hh hc hf
  obtain ⟨h4, h5⟩ := loadCsv_spec hs h2
  exact ⟨t, h3, by rw [h4, h1], h5⟩

/-- C88. Whether or not the conversion raised: what is in the store afterwards was there before or is the table of a channel
file. -/
theorem C88_nothing_else {α : Type} {cfg : RawConfig α} (hs : SortsByTime cfg.sort) {tree : RawTree α} (hu : UniqueNames tree)
    (st : RawStore α) (k : Str) :
    (convertRaw cfg (some tree) st).1 k = st k ∨
    ∃ house chan rows t, 1 ≤ house ∧ house ≤ 9 ∧ 1 ≤ chan ∧ chan ≤ 99 ∧ k = meterKey house chan ∧
      ChannelFile tree house chan rows ∧ (convertRaw cfg (some tree) st).1 k = some t ∧
      cfg.mapping house chan = .ok t.columns ∧ StoresRows cfg.sortIndex cfg.dropDuplicates rows t.rows := by
  unfold convertRaw
  simp only
  rcases convertHouses_frame (cfg := cfg) (tree := tree) (findAllHouses tree) st k with hi | ⟨h, h1, chans, h2, c, h3, t, h4, h5⟩
  · exact .inl hi
  · obtain ⟨a1, a2, a3, rows, columns, b1, b2, b3⟩ := (convertChan_ok hu).1 h4
    obtain ⟨c1, c2⟩ := loadCsv_spec hs b3
    have hlt := ((mem_findAllHouses hu h).1 h1).1
    have hclt : c < 100 := by
      unfold findAllChans at h2
      split at h2
      · cases h2
      · cases h2
        obtain ⟨_, _, _, hm⟩ := mem_chans.1 h3
        exact matchChannel_lt hm
    exact .inr ⟨h, c, rows, t, a1, by omega, a2, by omega, a3, b1, h5, by rw [c1, b2], c2⟩

/-- A tree as the converters expect it: what begins with `house_` is a directory or file `house_<h>`, files in them that begin
with `channel_` are called `channel_<c>.dat` and not empty; numbers are positive and have one digit and at most two. -/
def ExpectedTree {α : Type} (tree : RawTree α) : Prop :=
  UniqueNames tree ∧
  (∀ name files, (name, some files) ∈ tree → "house_".toList <+: name →
    (∃ h, 1 ≤ h ∧ h ≤ 9 ∧ name = "house_".toList ++ formatNat h) ∧
    ∀ file rows, (file, some rows) ∈ files → "channel_".toList <+: file →
      rows ≠ [] ∧ ∃ c, 1 ≤ c ∧ c ≤ 99 ∧ file = "channel_".toList ++ formatNat c ++ ".dat".toList)

theorem convertChans_none {α : Type} {cfg : RawConfig α} {tree : RawTree α} {h : Nat} (cs : List Nat) (st : RawStore α)
    (hok : ∀ c ∈ cs, ∃ p, convertChan cfg tree h c = .ok p) : (convertChans cfg tree h cs st).2 = none := by
  induction cs generalizing st with
  | nil => rfl
  | cons c cs ih =>
    obtain ⟨⟨k, t⟩, hp⟩ := hok c List.mem_cons_self
    rw [convertChans, hp]
    exact ih _ (fun c' hc' => hok c' (List.mem_cons_of_mem _ hc'))

theorem convertHouses_none {α : Type} {cfg : RawConfig α} {tree : RawTree α} (hs : List Nat) (st : RawStore α)
    (hok : ∀ h ∈ hs, ∃ chans, findAllChans tree h = .ok chans ∧ ∀ c ∈ chans, ∃ p, convertChan cfg tree h c = .ok p) :
    (convertHouses cfg tree hs st).2 = none := by
  induction hs generalizing st with
  | nil => rfl
  | cons h hs ih =>
    obtain ⟨chans, h1, h2⟩ := hok h List.mem_cons_self
    rw [convertHouses, h1]
    have h3 := convertChans_none (cfg := cfg) (tree := tree) chans st h2
    simp only
    cases hr : convertChans cfg tree h chans st with
    | mk st' e =>
      rw [hr] at h3
      simp only at h3
      subst h3
      exact ih st' (fun h' hh' => hok h' (List.mem_cons_of_mem _ hh'))

/-- C88. Conversion of a directory as it is expected raises nothing, if the mapping knows all channels; a path that is no
directory is an `IOError` and nothing is stored. -/
theorem C88_converts {α : Type} (cfg : RawConfig α) (st : RawStore α) :
    (convertRaw cfg none st = (st, some .fileNotFound)) ∧
    ∀ tree : RawTree α, ExpectedTree tree →
      (∀ h c rows, ChannelFile tree h c rows → ∃ columns, cfg.mapping h c = .ok columns) →
      (convertRaw cfg (some tree) st).2 = none := by
  refine ⟨rfl, ?_⟩
  rintro tree ⟨hu, hx⟩ hmap
  unfold convertRaw
  apply convertHouses_none
  intro h hh
  obtain ⟨hlt, files, hd⟩ := (mem_findAllHouses hu h).1 hh
  have hmem := (houseDir_iff hu _ _).1 hd
  obtain ⟨⟨h', h1, h9, he⟩, hfiles⟩ := hx _ _ hmem ⟨_, rfl⟩
  have hpos : 1 ≤ h := by
    have e1 := (matchHouse_iff (houseName h) h).2 ⟨hlt, rfl⟩
    have e2 := (matchHouse_iff (houseName h') h').2 ⟨by omega, rfl⟩
    have : houseName h = houseName h' := he
    rw [this, e2] at e1
    cases e1
    exact h1
  refine ⟨_, by unfold findAllChans; rw [hd], ?_⟩
  intro c hc
  obtain ⟨name, rows, m1, m2⟩ := mem_chans.1 hc
  obtain ⟨hne, c', c1, c99, rfl⟩ := hfiles _ _ m1 (matchChannel_prefix m2)
  have : c = c' := by
    have e := matchChannel_name (show c' < 100 by omega)
    unfold channelName at e
    rw [e] at m2
    cases m2
    rfl
  subst this
  have hcf : ChannelFile tree h c rows := ⟨files, hmem, m1⟩
  obtain ⟨columns, hcol⟩ := hmap h c rows hcf
  have hl : ∃ t, loadCsv cfg.sort rows columns cfg.dropDuplicates cfg.sortIndex = .ok t := by
    unfold loadCsv
    rw [if_neg (by simpa using hne)]
    exact ⟨_, rfl⟩
  obtain ⟨t, ht⟩ := hl
  exact ⟨_, (convertChan_ok hu).2 ⟨hpos, c1, rfl, rows, columns, hcf, hcol, ht⟩⟩

/-- A tree with the names that the converters expect; files may be empty. -/
def ExpectedNames {α : Type} (tree : RawTree α) : Prop :=
  UniqueNames tree ∧
  (∀ name files, (name, some files) ∈ tree → "house_".toList <+: name →
    (∃ h, 1 ≤ h ∧ h ≤ 9 ∧ name = "house_".toList ++ formatNat h) ∧
    ∀ file rows, (file, some rows) ∈ files → "channel_".toList <+: file →
      ∃ c, 1 ≤ c ∧ c ≤ 99 ∧ file = "channel_".toList ++ formatNat c ++ ".dat".toList)

theorem convertChans_only {α : Type} {cfg : RawConfig α} {tree : RawTree α} {h : Nat} {e : Err} (cs : List Nat) (st : RawStore α)
    (hok : ∀ c ∈ cs, (∃ p, convertChan cfg tree h c = .ok p) ∨ convertChan cfg tree h c = .error e) :
    (convertChans cfg tree h cs st).2 = none ∨ (convertChans cfg tree h cs st).2 = some e := by
  induction cs generalizing st with
  | nil => exact .inl rfl
  | cons c cs ih =>
    rw [convertChans]
    rcases hok c List.mem_cons_self with ⟨⟨k, t⟩, hp⟩ | hp
    · rw [hp]
      exact ih _ (fun c' hc' => hok c' (List.mem_cons_of_mem _ hc'))
    · rw [hp]
      exact .inr rfl

theorem convertHouses_only {α : Type} {cfg : RawConfig α} {tree : RawTree α} {e : Err} (hs : List Nat) (st : RawStore α)
    (hok : ∀ h ∈ hs, ∃ chans, findAllChans tree h = .ok chans ∧
      ∀ c ∈ chans, (∃ p, convertChan cfg tree h c = .ok p) ∨ convertChan cfg tree h c = .error e) :
    (convertHouses cfg tree hs st).2 = none ∨ (convertHouses cfg tree hs st).2 = some e := by
  induction hs generalizing st with
  | nil => exact .inl rfl
  | cons h hs ih =>
    obtain ⟨chans, h1, h2⟩ := hok h List.mem_cons_self
    rw [convertHouses, h1]
    have h3 := convertChans_only (cfg := cfg) (tree := tree) chans st h2
    simp only
    cases hr : convertChans cfg tree h chans st with
    | mk st' e' =>
      rw [hr] at h3
      simp only at h3
      rcases h3 with rfl | rfl
      · exact ih st' (fun h' hh' => hok h' (List.mem_cons_of_mem _ hh'))
      · exact .inr rfl

/-- C88. With the names that are expected and a mapping that knows all channels, conversion raises `ValueError` (pandas' `EmptyDataError`) exactly if
there is an empty channel file, and nothing else. -/
theorem C88_empty_file {α : Type} (cfg : RawConfig α) (st : RawStore α) (tree : RawTree α) (hx : ExpectedNames tree)
    (hmap : ∀ h c rows, ChannelFile tree h c rows → ∃ columns, cfg.mapping h c = .ok columns) :
    ((convertRaw cfg (some tree) st).2 = some .valueError ↔ ∃ h c, ChannelFile tree h c []) ∧
    ((convertRaw cfg (some tree) st).2 = none ↔ ¬ ∃ h c, ChannelFile tree h c []) := by
  obtain ⟨hu, hx⟩ := hx
  have hhouse : ∀ h h', 1 ≤ h' → h' ≤ 9 → houseName h = houseName h' → h = h' := by
    intro h h' h1 h9 he
    exact formatNat_injective _ _ (List.append_cancel_left he)
  have hchan : ∀ c c', c' ≤ 99 → channelName c = channelName c' → c = c' := by
    intro c c' _ he
    exact formatNat_injective _ _ (List.append_cancel_left (List.append_cancel_right he))
  have honly : (convertRaw cfg (some tree) st).2 = none ∨ (convertRaw cfg (some tree) st).2 = some .valueError := by
    unfold convertRaw
    apply convertHouses_only
    intro h hh
    obtain ⟨hlt, files, hd⟩ := (mem_findAllHouses hu h).1 hh
    have hmem := (houseDir_iff hu _ _).1 hd
    obtain ⟨⟨h', h1, h9, he⟩, hfiles⟩ := hx _ _ hmem ⟨_, rfl⟩
    obtain rfl := hhouse h h' h1 h9 he
    refine ⟨_, by unfold findAllChans; rw [hd], ?_⟩
    intro c hc
    obtain ⟨name, rows, m1, m2⟩ := mem_chans.1 hc
    obtain ⟨c', c1, c99, rfl⟩ := hfiles _ _ m1 (matchChannel_prefix m2)
    have : c = c' := by
      have e := matchChannel_name (show c' < 100 by omega)
      unfold channelName at e
      rw [e] at m2
      cases m2
      rfl
    subst this
    have hcf : ChannelFile tree h c rows := ⟨files, hmem, m1⟩
    obtain ⟨columns, hcol⟩ := hmap h c rows hcf
    by_cases hne : rows = []
    · right
      obtain ⟨key, hkey⟩ := keyOfNumbers_total h1 c1
      unfold convertChan
      simp only [hkey, hcol, (csvFile_iff hu _ _ _).2 hcf]
      rw [loadCsv, if_pos (by simp [hne])]
    · left
      have hl : ∃ t, loadCsv cfg.sort rows columns cfg.dropDuplicates cfg.sortIndex = .ok t := by
        unfold loadCsv
        rw [if_neg (by simpa using hne)]
        exact ⟨_, rfl⟩
      obtain ⟨t, ht⟩ := hl
      exact ⟨_, (convertChan_ok hu).2 ⟨h1, c1, rfl, rows, columns, hcf, hcol, ht⟩⟩
  have hnone : (convertRaw cfg (some tree) st).2 = none ↔ ¬ ∃ h c, ChannelFile tree h c [] := by
    constructor
    · rintro hn ⟨h, c, files, f1, f2⟩
      obtain ⟨⟨h', h1, h9, he⟩, hfiles⟩ := hx _ _ f1 ⟨_, rfl⟩
      obtain rfl := hhouse h h' h1 h9 he
      obtain ⟨c', c1, c99, hc⟩ := hfiles _ _ f2 ⟨_, (List.append_assoc _ _ _).symm⟩
      obtain rfl := hchan c c' c99 hc
      obtain ⟨-, -, columns, t, -, hl, -⟩ := convertRaw_all hu (Prod.ext rfl hn : convertRaw cfg (some tree) st = (_, none)) h9 c99 ⟨files, f1, f2⟩
      simp [loadCsv] at hl
    · intro hne
      refine (C88_converts cfg st).2 tree ⟨hu, ?_⟩ hmap
      intro name files hm hp
      obtain ⟨⟨h, h1, h9, rfl⟩, hf⟩ := hx name files hm hp
      refine ⟨⟨h, h1, h9, rfl⟩, ?_⟩
      intro file rows hr hpre
      obtain ⟨c, c1, c99, rfl⟩ := hf file rows hr hpre
      refine ⟨?_, c, c1, c99, rfl⟩
      rintro rfl
      exact hne ⟨h, c, files, hm, hr⟩
  refine ⟨?_, hnone⟩
  constructor
  · intro hv
    by_contra hc
    rw [hnone.2 hc] at hv
    cases hv
  · intro hex
    rcases honly with hn | hv
    · exact absurd hex (hnone.1 hn)
    · exact hv

/-- A tree with the expected names and an empty file. -/
example : ExpectedNames [("house_1".toList, some [("channel_1.dat".toList, some ([] : RawRows Rat))])] ∧
    ∃ h c, ChannelFile [("house_1".toList, some [("channel_1.dat".toList, some ([] : RawRows Rat))])] h c [] := by
  have e1 : "house_".toList ++ formatNat 1 = "house_1".toList := by decide +kernel
  have e2 : "channel_".toList ++ formatNat 1 ++ ".dat".toList = "channel_1.dat".toList := by decide +kernel
  refine ⟨⟨?_, ?_⟩, 1, 1, [("channel_1.dat".toList, some [])], List.mem_singleton.2 (by rw [e1]), List.mem_singleton.2 (by rw [e2])⟩
  · unfold UniqueNames
    simp
  · intro name files h _
    obtain ⟨rfl, rfl⟩ : name = "house_1".toList ∧ files = [("channel_1.dat".toList, some [])] := by simpa using h
    refine ⟨⟨1, by decide, by decide, e1.symm⟩, ?_⟩
    intro file rows h _
    obtain ⟨rfl, rfl⟩ : file = "channel_1.dat".toList ∧ rows = [] := by simpa using h
    exact ⟨1, by decide, by decide, e2.symm⟩

/-- C88. The order in which the system lists the directories does not matter: two conversions of the same files, into stores
with the same content, end with the same store, if neither raises. -/
theorem C88_listing {α : Type} {cfg : RawConfig α} {tree tree' : RawTree α} (hu : UniqueNames tree)
    (hu' : UniqueNames tree') (hsame : ∀ h c rows, ChannelFile tree h c rows ↔ ChannelFile tree' h c rows)
    {st a b : RawStore α} (ha : convertRaw cfg (some tree) st = (a, none)) (hb : convertRaw cfg (some tree') st = (b, none)) :
    a = b := by
  have half : ∀ {t1 t2 : RawTree α} {a b : RawStore α}, UniqueNames t1 → UniqueNames t2 →
      (∀ h c rows, ChannelFile t1 h c rows → ChannelFile t2 h c rows) →
      convertRaw cfg (some t1) st = (a, none) → convertRaw cfg (some t2) st = (b, none) → ∀ k, a k = b k ∨ a k = st k := by
    intro t1 t2 a b u1 u2 hsub ha hb k
    have ha' := ha
    unfold convertRaw at ha'
    simp only at ha'
    rcases convertHouses_frame (cfg := cfg) (tree := t1) (findAllHouses t1) st k with hi | ⟨h, h1, chans, h2, c, h3, t, h4, h5⟩
    · rw [ha'] at hi
      exact .inr hi
    · rw [ha'] at h5
      simp only at h5
      obtain ⟨a1, a2, rfl, rows, columns, b1, b2, b3⟩ := (convertChan_ok u1).1 h4
      have hlt := ((mem_findAllHouses u1 h).1 h1).1
      have hclt : c < 100 := by
        unfold findAllChans at h2
        split at h2
        · cases h2
        · cases h2
          obtain ⟨_, _, _, hm⟩ := mem_chans.1 h3
          exact matchChannel_lt hm
      obtain ⟨_, _, columns', t', x1, x2, x3⟩ := convertRaw_all u2 hb (by omega) (by omega) (hsub _ _ _ b1)
      rw [b2] at x1
      cases x1
      rw [b3] at x2
      cases x2
      exact .inl (by rw [h5, x3])
  funext k
  have e1 := half hu hu' (fun h c r => (hsame h c r).1) ha hb k
  have e2 := half hu' hu (fun h c r => (hsame h c r).2) hb ha k
  rcases e1 with e1 | e1
  · exact e1
  · rcases e2 with e2 | e2
    · exact e2.symm
    · rw [e1, e2]

/-- C88. `convert_redd` stores the readings of every channel in order of time, all of them; those of channels 1 and 2 as
apparent and all others as active power; and nothing else. -/
theorem C88_redd_partial {α : Type} {sort : List (Int × α) → List (Int × α)} (hs : SortsByTime sort) {tree : RawTree α}
    (hx : ExpectedTree tree) :
    ∃ st, convertRedd sort (some tree) = (st, none) ∧
      (∀ house chan rows, house ≤ 9 → chan ≤ 99 → ChannelFile tree house chan rows → ∃ t, st (meterKey house chan) = some t ∧
        t.columns = [("power", if chan = 1 ∨ chan = 2 then "apparent" else "active")] ∧
        t.rows.Perm (inNanoseconds rows) ∧ t.rows.Pairwise (fun a b => a.1 ≤ b.1)) ∧
      (∀ k t, st k = some t → ∃ house chan rows, k = meterKey house chan ∧ ChannelFile tree house chan rows) := by
  have hn := (C88_converts (⟨sort, reddMapping, true, false⟩ : RawConfig α) (fun _ => none)).2 tree hx
    (fun h c rows _ => ⟨_, rfl⟩)
  refine ⟨(convertRedd sort (some tree)).1, Prod.ext rfl hn, ?_, ?_⟩
  · intro house chan rows hh hc hf
    have hres : convertRaw (⟨sort, reddMapping, true, false⟩ : RawConfig α) (some tree) (fun _ => none) =
        ((convertRedd sort (some tree)).1, none) := Prod.ext rfl hn
    obtain ⟨_, hc1, _⟩ := convertRaw_all hx.1 hres hh hc hf
    obtain ⟨t, h1, h2, h3⟩ := C88_stored_partial hs hx.1 hres hh hc hf
    refine ⟨t, h1, ?_, h3.all rfl, h3.order rfl⟩
    have h2' : reddMapping house chan = .ok t.columns := h2
    unfold reddMapping at h2'
    simp only [Except.ok.injEq] at h2'
    rw [← h2']
    by_cases hle : chan ≤ 2
    · rw [if_pos hle, if_pos (by omega)]
    · rw [if_neg hle, if_neg (by omega)]
  · intro k t hk
    rcases C88_nothing_else (cfg := ⟨sort, reddMapping, true, false⟩) hs hx.1 (fun _ => none) k with
      h | ⟨house, chan, rows, _, _, _, _, _, h1, h2, _⟩
    · have : (convertRedd sort (some tree)).1 k = none := h
      rw [this] at hk
      cases hk
    · exact ⟨house, chan, rows, h1, h2⟩

/-! ### UK-DALE -/

theorem mainsFile_iff {α : Type} {tree : RawTree α} (hu : UniqueNames tree) (h : Nat) (rows : RawRows α) :
    (houseDir tree (houseName h)).bind (fun files => (files.lookup "mains.dat".toList).join) = some rows ↔
      HouseFile tree h "mains.dat".toList rows := by
  have key : ∀ files : List (Str × Option (RawRows α)), (files.map Prod.fst).Nodup →
      ∀ name, (files.lookup name).join = some rows ↔ (name, some rows) ∈ files := by
    intro files hn name
    rw [← lookup_nodup_iff hn]
    cases files.lookup name with
    | none => simp
    | some o => cases o <;> simp
  constructor
  · intro e
    rw [Option.bind_eq_some_iff] at e
    obtain ⟨files, e1, e2⟩ := e
    have e1' := (houseDir_iff hu _ _).1 e1
    exact ⟨files, e1', (key files (hu.2 _ _ e1') _).1 e2⟩
  · rintro ⟨files, e1, e2⟩
    rw [Option.bind_eq_some_iff]
    exact ⟨files, (houseDir_iff hu _ _).2 e1, (key files (hu.2 _ _ e1) _).2 e2⟩

theorem oneSecLoop_spec {α : Type} {sort : List (Int × α) → List (Int × α)} {tree : RawTree α} (hu : UniqueNames tree)
    {drop : Bool} (ids : List (Nat × Nat)) (st st' : RawStore α) (hn : oneSecLoop sort tree drop ids st = (st', none)) :
    (∀ h c, (h, c) ∈ ids → 1 ≤ h ∧ 1 ≤ c ∧ ∃ rows t, HouseFile tree h "mains.dat".toList rows ∧
      loadCsv sort rows oneSecColumns drop false = .ok t ∧ st' (meterKey h c) = some t) ∧
    (∀ k, (∀ h c, (h, c) ∈ ids → k ≠ meterKey h c) → st' k = st k) := by
  induction ids generalizing st with
  | nil =>
    cases hn
    exact ⟨by simp, fun _ _ => rfl⟩
  | cons id ids ih =>
    obtain ⟨h, c⟩ := id
    rw [oneSecLoop] at hn
    split at hn
    · cases hn
    · rename_i key hkey
      obtain ⟨k1, k2, k3⟩ := keyOfNumbers_ok hkey
      split at hn
      · cases hn
      · rename_i file hfile
        have hfile' := (mainsFile_iff hu h file).1 hfile
        split at hn
        · cases hn
        · rename_i table htab
          rw [k3] at hn
          simp only at hn
          obtain ⟨i1, i2⟩ := ih _ hn
          constructor
          · intro h' c' hm
            rcases List.mem_cons.1 hm with e | hm
            · cases e
              refine ⟨k1, k2, ?_⟩
              by_cases hin : (h, c) ∈ ids
              · exact (i1 h c hin).2.2
              · refine ⟨file, table, hfile', htab, ?_⟩
                rw [i2, RawStore.put, if_pos rfl]
                intro h2 c2 hm2 he
                obtain ⟨a1, a2, _⟩ := i1 h2 c2 hm2
                obtain ⟨rfl, rfl⟩ := meterKey_inj k1 k2 a1 a2 he
                exact hin hm2
            · exact i1 h' c' hm
          · intro k hk
            rw [i2 k (fun h2 c2 hm2 => hk h2 c2 (List.mem_cons_of_mem _ hm2)), RawStore.put,
              if_neg (hk h c List.mem_cons_self)]

theorem convertUkdale_ok {α : Type} {sort : List (Int × α) → List (Int × α)} {tree : RawTree α} {m : AcTypeMap} {drop : Bool}
    {st : RawStore α} (h : convertUkdale sort (some tree) m drop = (st, none)) :
    ∃ st1, convertRaw ⟨sort, ukdaleMapping m, false, drop⟩ (some tree) (fun _ => none) = (st1, none) ∧
      oneSecLoop sort tree drop ((m.filter (fun e => e.2 = ["active", "apparent"])).map Prod.fst) st1 = (st, none) := by
  unfold convertUkdale at h
  cases hr : convertRaw (⟨sort, ukdaleMapping m, false, drop⟩ : RawConfig α) (some tree) (fun _ => none) with
  | mk st1 e =>
    rw [hr] at h
    cases e with
    | some e => simp only [Prod.mk.injEq] at h; cases h.2
    | none => exact ⟨st1, rfl, h⟩

/-- C88. After `convert_ukdale` the store holds, under the key of its house and meter: for every meter of active and apparent
power the rows of `mains.dat` of its house; for every other channel file its rows, as power of the first kind that its
metadata names; nothing else. The rows are those of the file in its order, of equal times only the first if asked for. -/
theorem C88_ukdale_partial {α : Type} {sort : List (Int × α) → List (Int × α)} (hs : SortsByTime sort) {tree : RawTree α}
    (hu : UniqueNames tree) {m : AcTypeMap} (hm : (m.map Prod.fst).Nodup) {drop : Bool} {st : RawStore α}
    (h : convertUkdale sort (some tree) m drop = (st, none)) :
    (∀ house chan, ((house, chan), ["active", "apparent"]) ∈ m → ∃ rows t, HouseFile tree house "mains.dat".toList rows ∧
      st (meterKey house chan) = some t ∧ t.columns = [("power", "active"), ("power", "apparent"), ("voltage", "")] ∧
      StoresRows false drop rows t.rows) ∧
    (∀ house chan rows, house ≤ 9 → chan ≤ 99 → ChannelFile tree house chan rows →
      ((house, chan), ["active", "apparent"]) ∉ m → ∃ kind kinds t, ((house, chan), kind :: kinds) ∈ m ∧
      st (meterKey house chan) = some t ∧ t.columns = [("power", kind)] ∧ StoresRows false drop rows t.rows) ∧
    (∀ k t, st k = some t → ∃ house chan, k = meterKey house chan ∧
      (((house, chan), ["active", "apparent"]) ∈ m ∨ ∃ rows, ChannelFile tree house chan rows)) := by
  obtain ⟨st1, h1, h2⟩ := convertUkdale_ok h
  obtain ⟨o1, o2⟩ := oneSecLoop_spec hu _ _ _ h2
  have hid : ∀ house chan, (house, chan) ∈ (m.filter (fun e => e.2 = ["active", "apparent"])).map Prod.fst ↔
      ((house, chan), ["active", "apparent"]) ∈ m := by
    intro house chan
    rw [List.mem_map]
    constructor
    · rintro ⟨⟨i, ts⟩, hi, rfl⟩
      rw [List.mem_filter, decide_eq_true_eq] at hi
      obtain ⟨hi, ht⟩ := hi
      simp only at ht
      rw [← ht]
      exact hi
    · intro hi
      exact ⟨_, List.mem_filter.2 ⟨hi, by simp⟩, rfl⟩
  refine ⟨?_, ?_, ?_⟩
  · intro house chan hi
    obtain ⟨_, _, rows, t, a1, a2, a3⟩ := o1 house chan ((hid house chan).2 hi)
    obtain ⟨b1, b2⟩ := loadCsv_spec hs a2
    exact ⟨rows, t, a1, a3, b1, b2⟩
  · intro house chan rows hh hc hf hni
    obtain ⟨p1, p2, _⟩ := convertRaw_all hu h1 hh hc hf
    obtain ⟨t, a1, a2, a3⟩ := C88_stored_partial hs hu h1 hh hc hf
    have a2' : ukdaleMapping m house chan = .ok t.columns := a2
    unfold ukdaleMapping at a2'
    split at a2'
    · cases a2'
    · cases a2'
    · rename_i kind kinds hl
      rw [Except.ok.injEq] at a2'
      refine ⟨kind, kinds, t, (lookup_nodup_iff hm _ _).1 hl, ?_, a2'.symm, a3⟩
      rw [o2, a1]
      intro h' c' hm' he
      obtain ⟨q1, q2, _⟩ := o1 h' c' hm'
      obtain ⟨rfl, rfl⟩ := meterKey_inj p1 p2 q1 q2 he
      exact hni ((hid house chan).1 hm')
  · intro k t hk
    by_cases hx : ∃ house chan, ((house, chan), ["active", "apparent"]) ∈ m ∧ k = meterKey house chan
    · obtain ⟨house, chan, x1, x2⟩ := hx
      exact ⟨house, chan, x2, .inl x1⟩
    · rw [o2 k (fun h' c' hm' he => hx ⟨h', c', (hid h' c').1 hm', he⟩)] at hk
      rcases C88_nothing_else (cfg := ⟨sort, ukdaleMapping m, false, drop⟩) hs hu (fun _ => none) k with
        hy | ⟨house, chan, rows, _, _, _, _, _, y1, y2, _⟩
      · rw [h1] at hy
        rw [show st1 k = none from hy] at hk
        cases hk
      · exact ⟨house, chan, y1, .inr ⟨rows, y2⟩⟩

theorem oneSecLoop_none {α : Type} {sort : List (Int × α) → List (Int × α)} {tree : RawTree α} (hu : UniqueNames tree)
    {drop : Bool} (ids : List (Nat × Nat)) (st : RawStore α)
    (hok : ∀ h c, (h, c) ∈ ids → 1 ≤ h ∧ 1 ≤ c ∧ ∃ rows, rows ≠ [] ∧ HouseFile tree h "mains.dat".toList rows) :
    (oneSecLoop sort tree drop ids st).2 = none := by
  induction ids generalizing st with
  | nil => rfl
  | cons id ids ih =>
    obtain ⟨h, c⟩ := id
    obtain ⟨h1, c1, rows, hne, hf⟩ := hok h c List.mem_cons_self
    obtain ⟨key, hkey⟩ := keyOfNumbers_total h1 c1
    have hr := (keyOfNumbers_ok hkey).2.2
    have hl : ∃ t, loadCsv sort rows oneSecColumns drop false = .ok t := by
      unfold loadCsv
      rw [if_neg (by simpa using hne)]
      exact ⟨_, rfl⟩
    obtain ⟨t, ht⟩ := hl
    rw [oneSecLoop]
    simp only [hkey, (mainsFile_iff hu h rows).2 hf, ht, hr]
    exact ih _ (fun h' c' hm => hok h' c' (List.mem_cons_of_mem _ hm))

/-- C88. `convert_ukdale` raises nothing for a directory as expected, if the metadata names a kind of power for every channel
and every house with a meter of active and apparent power has a `mains.dat`. -/
theorem C88_ukdale_converts {α : Type} (sort : List (Int × α) → List (Int × α)) {tree : RawTree α} (hx : ExpectedTree tree)
    (m : AcTypeMap) (drop : Bool)
    (hmap : ∀ h c rows, ChannelFile tree h c rows → ∃ kind kinds, m.lookup (h, c) = some (kind :: kinds))
    (hmains : ∀ h c, ((h, c), ["active", "apparent"]) ∈ m →
      1 ≤ h ∧ 1 ≤ c ∧ ∃ rows, rows ≠ [] ∧ HouseFile tree h "mains.dat".toList rows) :
    (convertUkdale sort (some tree) m drop).2 = none := by
  have hn := (C88_converts (⟨sort, ukdaleMapping m, false, drop⟩ : RawConfig α) (fun _ => none)).2 tree hx (by
    intro h c rows hf
    obtain ⟨kind, kinds, hl⟩ := hmap h c rows hf
    exact ⟨[("power", kind)], by simp only [ukdaleMapping, hl]⟩)
  unfold convertUkdale
  cases hr : convertRaw (⟨sort, ukdaleMapping m, false, drop⟩ : RawConfig α) (some tree) (fun _ => none) with
  | mk st1 e =>
    rw [hr] at hn
    simp only at hn
    subst hn
    apply oneSecLoop_none hx.1
    intro h c hm
    rw [List.mem_map] at hm
    obtain ⟨⟨i, ts⟩, hi, he⟩ := hm
    rw [List.mem_filter, decide_eq_true_eq] at hi
    obtain ⟨hi, ht⟩ := hi
    simp only at ht he
    subst ht he
    exact hmains h c hi

/-! ### What fails, and examples -/

/-- A stable sort. -/
def stableSort (l : List (Int × Rat)) : List (Int × Rat) := l.insertionSort (fun a b => a.1 ≤ b.1)

/-- A sort that puts equal times in the opposite order, unless there is nothing to sort. -/
def unstableSort (l : List (Int × Rat)) : List (Int × Rat) :=
  if l.Pairwise (fun a b => a.1 ≤ b.1) then l else l.reverse.insertionSort (fun a b => a.1 ≤ b.1)

instance : Std.Total (fun a b : Int × Rat => a.1 ≤ b.1) := ⟨fun a b => le_total a.1 b.1⟩
instance : IsTrans (Int × Rat) (fun a b : Int × Rat => a.1 ≤ b.1) := ⟨fun _ _ _ => le_trans⟩

theorem stableSort_sorts : SortsByTime stableSort where
  perm l := List.perm_insertionSort _ l
  sorted l := List.pairwise_insertionSort (fun a b : Int × Rat => a.1 ≤ b.1) l
  keep l h := by
    apply List.Pairwise.insertionSort_eq
    exact h

theorem unstableSort_sorts : SortsByTime unstableSort where
  perm l := by
    unfold unstableSort
    split
    · exact List.Perm.refl _
    · exact (List.perm_insertionSort _ _).trans (List.reverse_perm l)
  sorted l := by
    unfold unstableSort
    split
    · assumption
    · exact List.pairwise_insertionSort (fun a b : Int × Rat => a.1 ≤ b.1) _
  keep l h := by
    unfold unstableSort
    rw [if_pos h]

/-- C88. The claim about all houses is false: a house whose number has two digits is left out without an error, and so is a
channel whose number has three. -/
theorem C88_numbers_counterexample :
    let tree : RawTree Rat := [("house_10".toList, some [("channel_1.dat".toList, some [(0, 1)])]),
      ("house_1".toList, some [("channel_100.dat".toList, some [(0, 1)])])]
    (convertRedd stableSort (some tree)).2 = none ∧ (convertRedd stableSort (some tree)).1 (meterKey 10 1) = none ∧
      (convertRedd stableSort (some tree)).1 (meterKey 1 100) = none := by
  decide +kernel

/-- C88. Other files are not left alone: the dot in the pattern matches everything and zeros may come first, but then a file
by the usual name is opened. Here conversion ends with an `AssertionError`. -/
theorem C88_names_counterexample :
    (convertRedd stableSort (some [("house_1".toList, some [("channel_1_dat".toList, some [((0 : Int), (1 : Rat))])])])).2 =
      some .assertionError ∧
    (convertRedd stableSort (some [("house_1".toList, some [("channel_01.dat".toList, some [((0 : Int), (1 : Rat))])])])).2 =
      some .assertionError := by
  decide +kernel

/-- C88. Of equal times not always the first is kept when the rows are sorted too: pandas may exchange them. -/
theorem C88_first_counterexample : SortsByTime unstableSort ∧
    loadCsv unstableSort [(5, 1), (5, 2), (3, 0)] [("power", "active")] true true =
      .ok ⟨[("power", "active")], [(3000000000, 0), (5000000000, 2)]⟩ :=
  ⟨unstableSort_sorts, by decide +kernel⟩

/-- C88. `convert_ukdale` does not sort: the table of a file that is out of order is out of order. -/
theorem C88_unsorted_counterexample :
    ((convertUkdale stableSort (some [("house_1".toList, some [("channel_2.dat".toList,
      some [((5 : Int), (1 : Rat)), (3, 2), (5, 7)])])]) [((1, 2), ["active"])] true).1 (meterKey 1 2)) =
      some ⟨[("power", "active")], [(5000000000, 1), (3000000000, 2)]⟩ := by
  decide +kernel

/-- A small dataset. -/
def smallTree : RawTree Rat :=
  [("metadata".toList, some []), ("house_2".toList, some [("channel_3.dat".toList, some [(5, 1), (3, 2), (5, 7)]),
    ("labels.dat".toList, some []), ("mains.dat".toList, some [(1, 9)]), ("channel_12.dat".toList, some [(4, 4)])]),
    ("house_1".toList, none)]

/-- The hypotheses of the theorems hold of a small dataset. -/
theorem smallTree_expected : ExpectedTree smallTree := by
  refine ⟨⟨by decide +kernel, ?_⟩, ?_⟩
  · intro name files h
    simp only [smallTree, List.mem_cons, Prod.mk.injEq, Option.some.injEq, reduceCtorEq, and_false, List.not_mem_nil,
      or_false] at h
    rcases h with ⟨rfl, rfl⟩ | ⟨rfl, rfl⟩ <;> decide +kernel
  · intro name files h hp
    simp only [smallTree, List.mem_cons, Prod.mk.injEq, Option.some.injEq, reduceCtorEq, and_false, List.not_mem_nil,
      or_false] at h
    rcases h with ⟨rfl, rfl⟩ | ⟨rfl, rfl⟩
    · exact absurd hp (by decide +kernel)
    · refine ⟨⟨2, by decide, by decide, by decide +kernel⟩, ?_⟩
      intro file rows hf hp
      simp only [List.mem_cons, Prod.mk.injEq, Option.some.injEq, List.not_mem_nil, or_false] at hf
      rcases hf with ⟨rfl, rfl⟩ | ⟨rfl, rfl⟩ | ⟨rfl, rfl⟩ | ⟨rfl, rfl⟩
      · exact ⟨by simp, 3, by decide, by decide, by decide +kernel⟩
      · exact absurd hp (by decide +kernel)
      · exact absurd hp (by decide +kernel)
      · exact ⟨by simp, 12, by decide, by decide, by decide +kernel⟩

example : (convertRedd stableSort (some smallTree)).2 = none ∧
    (convertRedd stableSort (some smallTree)).1 "/building2/elec/meter3".toList =
      some ⟨[("power", "active")], [(3000000000, 2), (5000000000, 1), (5000000000, 7)]⟩ := by
  decide +kernel

example : (convertUkdale stableSort (some smallTree) [((2, 3), ["active"]), ((2, 12), ["apparent"]),
      ((2, 20), ["active", "apparent"])] true).2 = none ∧
    ((convertUkdale stableSort (some smallTree) [((2, 3), ["active"]), ((2, 12), ["apparent"]),
      ((2, 20), ["active", "apparent"])] true).1 (meterKey 2 20)).map RawTable.rows = some [(1000000000, 9)] := by
  decide +kernel

end Nilmtk
