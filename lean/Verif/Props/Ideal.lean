import Verif.Model.Ideal
import Verif.Props.Eco
/-!
C106: what the converter of the IDEAL dataset stores.
-/
namespace Nilmtk

/-! ### Specification -/

/-- A file of the dataset: the numbers and texts in its name and its rows. -/
structure IdealEntry (α : Type) where
  home : Nat
  roomType : Str
  roomNo : Nat
  sensor : Str
  category : Str
  subtype : Str
  rows : List (Option Int × α)

/-- `home<h>_<room><r>_sensor<s>_<category>_<subtype>.csv.gz`. -/
def IdealEntry.name {α : Type} (e : IdealEntry α) : Str :=
  ("home".toList ++ formatNat e.home) ++ '_' :: ((e.roomType ++ formatNat e.roomNo) ++ '_' ::
    (("sensor".toList ++ e.sensor) ++ '_' :: (e.category ++ '_' :: (e.subtype ++ ".csv.gz".toList))))

/-- The mains and the appliances. -/
def IdealEntry.Electric {α : Type} (e : IdealEntry α) : Prop :=
  e.category = "electric-mains".toList ∨ e.category = "electric-appliance".toList

/-- The number of the meter: the number of the sensor, and the first one for mains with two sensors, `<n>c<m>`. -/
def IdealEntry.Numbered {α : Type} (e : IdealEntry α) (n : Nat) : Prop :=
  e.sensor = formatNat n ∨ (e.category = "electric-mains".toList ∧ ∃ m, e.sensor = formatNat n ++ 'c' :: m)

/-- The texts in the name have no underscore, the type of the room no digit, and electric sensors are numbered. -/
structure IdealEntry.WellNamed {α : Type} (e : IdealEntry α) : Prop where
  type_ : ∀ c ∈ e.roomType, c ≠ '_' ∧ digitVal c = none
  sensor_ : '_' ∉ e.sensor
  category_ : '_' ∉ e.category
  subtype_ : '_' ∉ e.subtype
  numbered : e.Electric → ∃ n, e.Numbered n

/-- The times can be read and there is a row. -/
def IdealEntry.Readable {α : Type} (e : IdealEntry α) : Prop := e.rows ≠ [] ∧ ∀ r ∈ e.rows, r.1 ≠ none

/-- Both homes of the files are the same and both folders have an electric file of it. -/
def IdealBoth {α : Type} (mains rooms : List (IdealEntry α)) (home : Nat) : Prop :=
  (∃ e ∈ mains, e.Electric ∧ e.home = home) ∧ ∃ e ∈ rooms, e.Electric ∧ e.home = home

/-- The path has the two folders `f₀` and `f₁`, in this order, with the files given. -/
structure IdealTree.Has {α : Type} (tree : IdealTree α) (f₀ f₁ : Str) (es₀ es₁ : List (IdealEntry α)) : Prop where
  folders : tree.walk.filter (fun f => f == "household_sensordata".toList || f == "rooms_appliance_sensordata".toList) = [f₀, f₁]
  dir₀ : tree.dir f₀ = some (es₀.map (fun e => (e.name, e.rows)))
  dir₁ : tree.dir f₁ = some (es₁.map (fun e => (e.name, e.rows)))
  named : ∀ e ∈ es₀ ++ es₁, e.WellNamed

/-- What is stored of a file: power, active for appliances and apparent for mains; its rows in the order of their times, each time
rounded down to the second. -/
def IdealEntry.Stored {α : Type} (e : IdealEntry α) (t : RawTable α) : Prop :=
  t.columns = [("power", if e.category = "electric-appliance".toList then "active" else "apparent")] ∧
  t.rows.Pairwise (fun a b => a.1 ≤ b.1) ∧
  ∃ l : List (Int × α), t.rows.Perm l ∧
    List.Forall₂ (fun (r : Option Int × α) (s : Int × α) => s.2 = r.2 ∧ ∃ x, r.1 = some x ∧ 1000000000 ∣ s.1 ∧ s.1 ≤ x ∧ x < s.1 + 1000000000)
      e.rows l

/-! ### Names -/

theorem splitChar_none {sep : Char} {s : Str} (h : sep ∉ s) : splitChar sep s = [s] := by
  induction s with
  | nil => rfl
  | cons c cs ih =>
    rw [List.mem_cons, not_or] at h
    unfold splitChar
    rw [if_neg (Ne.symm h.1), ih h.2]

theorem splitChar_append {sep : Char} {s : Str} (h : sep ∉ s) (t : Str) : splitChar sep (s ++ sep :: t) = s :: splitChar sep t := by
  induction s with
  | nil => simp [splitChar]
  | cons c cs ih =>
    rw [List.mem_cons, not_or] at h
    rw [List.cons_append]
    conv_lhs => unfold splitChar
    rw [if_neg (Ne.symm h.1), ih h.2]

theorem splitChar_length (sep : Char) (s : Str) : (splitChar sep s).length = s.count sep + 1 := by
  induction s with
  | nil => rfl
  | cons c cs ih =>
    unfold splitChar
    split
    · rename_i h; subst h; simp [ih]
    · rename_i h
      rw [List.count_cons_of_ne h]
      cases hs : splitChar sep cs with
      | nil => rw [hs] at ih; simp at ih
      | cons p ps => rw [hs] at ih; simpa using ih

theorem formatNat_mem {n : Nat} {c : Char} (h : c ∈ formatNat n) : c ≠ '_' ∧ c ≠ 'c' ∧ (digitVal c).isSome = true := by
  obtain ⟨d, hd, rfl⟩ := formatNat_digits n c h
  rw [digitVal_digitChar d hd]
  have : ∀ d < 10, digitChar d ≠ '_' ∧ digitChar d ≠ 'c' := by decide
  exact ⟨(this d hd).1, (this d hd).2, rfl⟩

theorem idealInt_format {p : Str} (hp : ∀ c ∈ p, digitVal c = none) (n : Nat) : idealInt (p ++ formatNat n) = .ok (n : Int) := by
  unfold idealInt
  rw [List.filter_append, List.filter_eq_nil_iff.2 (by intro c hc; simp [hp c hc]),
    List.filter_eq_self.2 (fun c hc => (formatNat_mem hc).2.2), List.nil_append, pyInt_formatNat]

theorem idealParts_name {α : Type} {e : IdealEntry α} (h : e.WellNamed) : idealParts e.name =
    .ok ⟨"home".toList ++ formatNat e.home, e.roomType ++ formatNat e.roomNo, "sensor".toList ++ e.sensor, e.category,
      e.subtype ++ ".csv.gz".toList⟩ := by
  have h1 : '_' ∉ "home".toList ++ formatNat e.home := by
    rw [List.mem_append, not_or]
    exact ⟨by decide, fun hm => (formatNat_mem hm).1 rfl⟩
  have h2 : '_' ∉ e.roomType ++ formatNat e.roomNo := by
    rw [List.mem_append, not_or]
    exact ⟨fun hm => (h.type_ _ hm).1 rfl, fun hm => (formatNat_mem hm).1 rfl⟩
  have h3 : '_' ∉ "sensor".toList ++ e.sensor := by
    rw [List.mem_append, not_or]
    exact ⟨by decide, h.sensor_⟩
  have h5 : '_' ∉ e.subtype ++ ".csv.gz".toList := by
    rw [List.mem_append, not_or]
    exact ⟨h.subtype_, by decide⟩
  unfold idealParts IdealEntry.name
  rw [splitChar_append h1, splitChar_append h2, splitChar_append h3, splitChar_append h.category_, splitChar_none h5]

theorem idealElectric_iff {α : Type} (e : IdealEntry α) : idealElectric e.category = true ↔ e.Electric := by
  unfold idealElectric IdealEntry.Electric
  rw [Bool.or_eq_true, beq_iff_eq, beq_iff_eq]

theorem home_digits : ∀ c ∈ "home".toList, digitVal c = none := by decide

theorem idealHomes_names {α : Type} {es : List (IdealEntry α)} (h : ∀ e ∈ es, e.WellNamed) :
    idealHomes (es.map IdealEntry.name) = .ok ((es.filter (fun e => idealElectric e.category)).map (fun e => (e.home : Int))) := by
  induction es with
  | nil => rfl
  | cons e es ih =>
    have ih := ih (fun x hx => h x (List.mem_cons_of_mem _ hx))
    rw [List.map_cons, idealHomes, idealParts_name (h e List.mem_cons_self)]
    simp only [idealInt_format home_digits, ih]
    by_cases he : idealElectric e.category = true
    · rw [if_pos he, List.filter_cons_of_pos (by simpa using he), List.map_cons]
    · rw [if_neg he, List.filter_cons_of_neg (by simpa using he)]

theorem idealFind_names {α : Type} (valid : List Int) {es : List (IdealEntry α)} (h : ∀ e ∈ es, e.WellNamed) :
    idealFind valid (es.map (fun e => (e.name, e.rows))) =
      .ok ((es.filter (fun e => idealElectric e.category && decide ((e.home : Int) ∈ valid))).map
        (fun e => ⟨(e.home : Int), e.sensor, e.category, e.rows⟩)) := by
  induction es with
  | nil => rfl
  | cons e es ih =>
    have ih := ih (fun x hx => h x (List.mem_cons_of_mem _ hx))
    have hw := h e List.mem_cons_self
    rw [List.map_cons, idealFind, ih, idealItem]
    rw [show ((e.name, e.rows) : Str × List (Option Int × α)).1 = e.name from rfl, idealParts_name hw]
    simp only [idealInt_format home_digits, idealInt_format (fun c hc => (hw.type_ c hc).2)]
    have h6 : ("sensor".toList ++ e.sensor).take 6 = "sensor".toList := List.take_left' (by decide)
    have h7 : ("sensor".toList ++ e.sensor).drop 6 = e.sensor := List.drop_left' (by decide)
    rw [h6, h7, if_pos rfl]
    by_cases he : idealElectric e.category = true
    · rw [if_pos he]
      by_cases hv : (e.home : Int) ∈ valid
      · rw [if_pos hv, List.filter_cons_of_pos (by simp [he, hv])]
        rfl
      · rw [if_neg hv, List.filter_cons_of_neg (by simp [hv])]
        rfl
    · rw [if_neg he, List.filter_cons_of_neg (by simp [he])]
      rfl

/-! ### Tables -/

theorem idealTimes_ok {α : Type} {rows : List (Option Int × α)} (h : ∀ r ∈ rows, r.1 ≠ none) : ∃ l, idealTimes rows = .ok l ∧
    List.Forall₂ (fun (r : Option Int × α) (s : Int × α) => s.2 = r.2 ∧ ∃ x, r.1 = some x ∧ 1000000000 ∣ s.1 ∧ s.1 ≤ x ∧ x < s.1 + 1000000000)
      rows l := by
  induction rows with
  | nil => exact ⟨[], rfl, .nil⟩
  | cons r rs ih =>
    obtain ⟨o, v⟩ := r
    obtain ⟨l, hl, hf⟩ := ih (fun x hx => h x (List.mem_cons_of_mem _ hx))
    cases o with
    | none => exact absurd rfl (h _ List.mem_cons_self)
    | some t =>
      refine ⟨(t / 1000000000 * 1000000000, v) :: l, by rw [idealTimes, hl], .cons ⟨rfl, t, rfl, ?_, ?_, ?_⟩ hf⟩
      · exact Dvd.intro_left _ rfl
      · simp only; omega
      · simp only; omega

theorem idealTimes_bad {α : Type} {rows : List (Option Int × α)} (h : ¬ ∀ r ∈ rows, r.1 ≠ none) : idealTimes rows = .error .valueError := by
  induction rows with
  | nil => simp at h
  | cons r rs ih =>
    obtain ⟨o, v⟩ := r
    cases o with
    | none => rfl
    | some t =>
      rw [idealTimes, ih (by
        intro hh
        apply h
        intro r hr
        rcases List.mem_cons.1 hr with rfl | hr
        · simp
        · exact hh r hr)]

theorem idealLoad_ok {α : Type} {sort : List (Int × α) → List (Int × α)} (hs : SortsByTime sort) {e : IdealEntry α} (h : e.Readable) :
    ∃ t, idealLoad sort e.rows (idealColumns e.category) = .ok t ∧ e.Stored t := by
  obtain ⟨l, hl, hf⟩ := idealTimes_ok h.2
  refine ⟨⟨idealColumns e.category, sort l⟩, ?_, ?_, hs.sorted l, l, hs.perm l, hf⟩
  · unfold idealLoad
    rw [if_neg (by simpa using h.1), hl]
  · unfold idealColumns
    simp only
    split <;> rfl

theorem idealLoad_bad {α : Type} {sort : List (Int × α) → List (Int × α)} {e : IdealEntry α} (h : ¬ e.Readable) :
    idealLoad sort e.rows (idealColumns e.category) = .error .valueError := by
  unfold idealLoad
  split
  · rfl
  · rename_i hn
    rw [idealTimes_bad (fun hh => h ⟨by simpa using hn, hh⟩)]

theorem idealMeter_ok {α : Type} {e : IdealEntry α} {n : Nat} (h : e.Numbered n) : idealMeter e.category e.sensor = some (n : Int) := by
  have hne : "electric-mains".toList ≠ "electric-appliance".toList := by decide
  have hc : 'c' ∉ formatNat n := fun hm => (formatNat_mem hm).2.1 rfl
  unfold idealMeter
  rcases h with h | ⟨hm, m, h⟩
  · rw [h, splitChar_none hc]
    split <;> exact pyInt_formatNat n
  · rw [if_neg (by rw [hm]; exact hne), h, splitChar_append hc]
    exact pyInt_formatNat n

theorem numbered_inj {α : Type} {e : IdealEntry α} {n m : Nat} (hn : e.Numbered n) (hm : e.Numbered m) : n = m := by
  have h1 := idealMeter_ok hn
  rw [idealMeter_ok hm] at h1
  have := Option.some.inj h1
  omega

/-! ### The loop -/

theorem ecoLoop_append_eq {α σ : Type} (body : α → σ → σ × Option Err) (xs ys : List α) (s : σ) :
    ecoLoop body (xs ++ ys) s = if (ecoLoop body xs s).2 = none then ecoLoop body ys (ecoLoop body xs s).1 else ecoLoop body xs s := by
  induction xs generalizing s with
  | nil => simp [ecoLoop]
  | cons x xs ih =>
    rw [List.cons_append, ecoLoop, ecoLoop]
    cases hb : body x s with
    | mk s' o =>
      cases o with
      | none => exact ih s'
      | some e => simp

/-- A loop that stores one table per round or raises. -/
theorem ecoLoop_puts {β α : Type} {body : β → RawStore α → RawStore α × Option Err} {good : β → Prop} {key : β → Str → Prop} {tab : β → RawTable α → Prop}
    (hg : ∀ b st, good b → ∃ k t, key b k ∧ tab b t ∧ body b st = (st.put k t, none))
    (l : List β) (hb : ∀ b ∈ l, ∀ st, ¬ good b → ∃ e, body b st = (st, some e)) (st : RawStore α) :
    ((ecoLoop body l st).2 = none ↔ ∀ b ∈ l, good b) ∧
    (∀ k t, (ecoLoop body l st).1 k = some t → st k = some t ∨ ∃ b ∈ l, good b ∧ key b k ∧ tab b t) := by
  induction l generalizing st with
  | nil => exact ⟨by simp [ecoLoop], fun k t h => .inl h⟩
  | cons b l ih =>
    rw [ecoLoop]
    by_cases hgb : good b
    · obtain ⟨k, t, hk, ht, e⟩ := hg b st hgb
      rw [e]
      obtain ⟨i1, i2⟩ := ih (fun b' hb' => hb b' (List.mem_cons_of_mem _ hb')) (st.put k t)
      refine ⟨by simp only [i1, List.forall_mem_cons, hgb, true_and], ?_⟩
      intro k' t' h
      rcases i2 k' t' h with h | ⟨b', hb', h⟩
      · unfold RawStore.put at h
        split at h
        · rename_i hkk
          cases h
          exact .inr ⟨b, List.mem_cons_self, hgb, hkk ▸ hk, ht⟩
        · exact .inl h
      · exact .inr ⟨b', List.mem_cons_of_mem _ hb', h⟩
    · obtain ⟨e, he⟩ := hb b List.mem_cons_self st hgb
      rw [he]
      refine ⟨?_, fun k t h => .inl h⟩
      constructor
      · intro h; cases h
      · intro h; exact absurd (h b List.mem_cons_self) hgb

/-- Later rounds with other keys leave a key as it is. -/
theorem ecoLoop_keeps {β α : Type} {body : β → RawStore α → RawStore α × Option Err} {good : β → Prop} {key : β → Str → Prop} {tab : β → RawTable α → Prop}
    (hg : ∀ b st, good b → ∃ k t, key b k ∧ tab b t ∧ body b st = (st.put k t, none))
    (l : List β) (hb : ∀ b ∈ l, ∀ st, ¬ good b → ∃ e, body b st = (st, some e)) (st : RawStore α) {k : Str} (hk : ∀ b ∈ l, good b → ¬ key b k) :
    (ecoLoop body l st).1 k = st k := by
  induction l generalizing st with
  | nil => rfl
  | cons b l ih =>
    rw [ecoLoop]
    by_cases hgb : good b
    · obtain ⟨k', t, hk', ht, e⟩ := hg b st hgb
      rw [e]
      simp only
      rw [ih (fun b' hb' => hb b' (List.mem_cons_of_mem _ hb')) _ (fun b' hb' => hk b' (List.mem_cons_of_mem _ hb'))]
      unfold RawStore.put
      rw [if_neg]
      rintro rfl
      exact hk b List.mem_cons_self hgb hk'
    · obtain ⟨e, he⟩ := hb b List.mem_cons_self st hgb
      rw [he]

/-- The round that raises. -/
theorem ecoLoop_first {β σ : Type} {body : β → σ → σ × Option Err} {l : List β} {st : σ} {err : Err} (h : (ecoLoop body l st).2 = some err) :
    ∃ pre b post, l = pre ++ b :: post ∧ (ecoLoop body pre st).2 = none ∧ body b (ecoLoop body pre st).1 = ((ecoLoop body l st).1, some err) := by
  induction l generalizing st with
  | nil => cases h
  | cons b l ih =>
    rw [ecoLoop] at h
    cases hb : body b st with
    | mk s o =>
      rw [hb] at h
      cases o with
      | some e =>
        cases h
        exact ⟨[], b, l, rfl, rfl, by simp [ecoLoop, hb]⟩
      | none =>
        obtain ⟨pre, b', post, h1, h2, h3⟩ := ih h
        refine ⟨b :: pre, b', post, by rw [h1]; rfl, ?_, ?_⟩
        · rw [ecoLoop, hb]; exact h2
        · rw [ecoLoop, hb, ecoLoop, hb]; exact h3

/-- What was stored stays stored. -/
theorem ecoLoop_filled {β α : Type} {body : β → RawStore α → RawStore α × Option Err} {good : β → Prop} {key : β → Str → Prop} {tab : β → RawTable α → Prop}
    (hg : ∀ b st, good b → ∃ k t, key b k ∧ tab b t ∧ body b st = (st.put k t, none)) (l : List β) (hl : ∀ b ∈ l, good b) (st : RawStore α) :
    (∀ k, (st k).isSome → ((ecoLoop body l st).1 k).isSome) ∧ ∀ b ∈ l, ∃ k, key b k ∧ ((ecoLoop body l st).1 k).isSome := by
  induction l generalizing st with
  | nil => exact ⟨fun k h => h, by simp⟩
  | cons b l ih =>
    obtain ⟨k, t, hk, ht, e⟩ := hg b st (hl b List.mem_cons_self)
    obtain ⟨i1, i2⟩ := ih (fun b' hb' => hl b' (List.mem_cons_of_mem _ hb')) (st.put k t)
    rw [ecoLoop, e]
    have hput : ((st.put k t) k).isSome := by simp [RawStore.put]
    refine ⟨?_, ?_⟩
    · intro k' hk'
      apply i1
      unfold RawStore.put
      split
      · rfl
      · exact hk'
    · intro b' hb'
      rcases List.mem_cons.1 hb' with rfl | hb'
      · exact ⟨k, hk, i1 k hput⟩
      · exact i2 b' hb'

/-! ### The conversion -/

/-- The files whose home is in both folders. -/
def idealPicked {α : Type} (valid : List Int) (es : List (IdealEntry α)) : List (IdealEntry α) :=
  es.filter (fun e => idealElectric e.category && decide ((e.home : Int) ∈ valid))

/-- The conversion of a file. -/
def idealBody {α : Type} (sort : List (Int × α) → List (Int × α)) (e : IdealEntry α) : RawStore α → RawStore α × Option Err :=
  idealStore sort ⟨(e.home : Int), e.sensor, e.category, e.rows⟩

theorem ecoLoop_map {α β σ : Type} (f : β → α) (body : α → σ → σ × Option Err) (l : List β) (s : σ) :
    ecoLoop body (l.map f) s = ecoLoop (fun b => body (f b)) l s := by
  induction l generalizing s with
  | nil => rfl
  | cons b l ih =>
    rw [List.map_cons, ecoLoop, ecoLoop]
    cases body (f b) s with
    | mk s' o => cases o <;> simp [ih]

theorem mem_idealValid {α : Type} {es₀ es₁ : List (IdealEntry α)} {home : Nat} :
    (home : Int) ∈ (((es₀.filter (fun e => idealElectric e.category)).map (fun e => (e.home : Int))).filter
      (fun h => decide (h ∈ (es₁.filter (fun e => idealElectric e.category)).map (fun e => (e.home : Int))))) ↔ IdealBoth es₀ es₁ home := by
  rw [List.mem_filter, decide_eq_true_eq]
  unfold IdealBoth
  simp only [List.mem_map, List.mem_filter, idealElectric_iff, Nat.cast_inj, and_assoc]

theorem convertIdeal_eq {α : Type} (sort : List (Int × α) → List (Int × α)) {tree : IdealTree α} {f₀ f₁ : Str} {es₀ es₁ : List (IdealEntry α)}
    (ht : tree.Has f₀ f₁ es₀ es₁) : ∃ valid : List Int, (∀ h : Nat, (h : Int) ∈ valid ↔ IdealBoth es₀ es₁ h) ∧
      convertIdeal sort tree = ecoLoop (idealBody sort) (idealPicked valid (es₀ ++ es₁)) (fun _ => none) := by
  have h0 : ∀ e ∈ es₀, e.WellNamed := fun e he => ht.named e (List.mem_append_left _ he)
  have h1 : ∀ e ∈ es₁, e.WellNamed := fun e he => ht.named e (List.mem_append_right _ he)
  refine ⟨_, fun h => mem_idealValid (es₀ := es₀) (es₁ := es₁), ?_⟩
  have hf : idealFolders tree = [f₀, f₁] := ht.folders
  have hn0 : idealNames tree f₀ = es₀.map IdealEntry.name := by
    unfold idealNames
    rw [ht.dir₀, Option.getD_some, List.map_map]
    rfl
  have hn1 : idealNames tree f₁ = es₁.map IdealEntry.name := by
    unfold idealNames
    rw [ht.dir₁, Option.getD_some, List.map_map]
    rfl
  have hv : idealValid tree (idealFolders tree) = .ok (((es₀.filter (fun e => idealElectric e.category)).map (fun e => (e.home : Int))).filter
      (fun h => decide (h ∈ (es₁.filter (fun e => idealElectric e.category)).map (fun e => (e.home : Int))))) := by
    rw [hf, idealValid, hn0, hn1, idealHomes_names h0, idealHomes_names h1]
  unfold convertIdeal
  rw [hv, hf]
  simp only
  generalize (((es₀.filter (fun e => idealElectric e.category)).map (fun e => (e.home : Int))).filter
      (fun h => decide (h ∈ (es₁.filter (fun e => idealElectric e.category)).map (fun e => (e.home : Int))))) = valid
  have hd0 : ∀ st, idealFolder sort tree valid f₀ st = ecoLoop (idealBody sort) (idealPicked valid es₀) st := by
    intro st
    rw [idealFolder, ht.dir₀]
    simp only [idealFind_names valid h0]
    rw [ecoLoop_map]
    rfl
  have hd1 : ∀ st, idealFolder sort tree valid f₁ st = ecoLoop (idealBody sort) (idealPicked valid es₁) st := by
    intro st
    rw [idealFolder, ht.dir₁]
    simp only [idealFind_names valid h1]
    rw [ecoLoop_map]
    rfl
  rw [idealPicked, List.filter_append, ecoLoop_append_eq, ecoLoop, hd0]
  unfold idealPicked
  cases hl : ecoLoop (idealBody sort) (List.filter (fun e => idealElectric e.category && decide ((e.home : Int) ∈ valid)) es₀) (fun _ => none) with
  | mk s o =>
    cases o with
    | some e => simp
    | none =>
      simp only [if_true]
      rw [ecoLoop, hd1]
      unfold idealPicked
      cases hl1 : ecoLoop (idealBody sort) (List.filter (fun e => idealElectric e.category && decide ((e.home : Int) ∈ valid)) es₁) s with
      | mk s' o' => cases o' <;> simp [ecoLoop]

/-- A file is converted if its rows are readable and the numbers of home and meter are not 0. -/
def IdealEntry.Good {α : Type} (e : IdealEntry α) : Prop := e.Electric ∧ (∃ n, e.Numbered n ∧ 1 ≤ n) ∧ 1 ≤ e.home ∧ e.Readable

theorem idealBody_good {α : Type} {sort : List (Int × α) → List (Int × α)} (hs : SortsByTime sort) {e : IdealEntry α} (st : RawStore α)
    (h : e.Good) : ∃ k t, (∃ n, e.Numbered n ∧ 1 ≤ n ∧ 1 ≤ e.home ∧ k = meterKey e.home n) ∧ e.Stored t ∧
      idealBody sort e st = (st.put k t, none) := by
  obtain ⟨he, ⟨n, hn, h1⟩, hh, hr⟩ := h
  obtain ⟨t, ht, hst⟩ := idealLoad_ok hs hr
  refine ⟨_, t, ⟨n, hn, h1, hh, rfl⟩, hst, ?_⟩
  unfold idealBody idealStore
  have hk := (ecoKey_ok (e.home : Int) (n : Int)).1 ⟨by omega, by omega⟩
  simp only [Int.toNat_natCast] at hk
  simp only [idealMeter_ok hn, hk, ht]

/-- The error that a file raises: `ValueError` for its rows and `AssertionError` for the number 0. -/
def IdealEntry.Fails {α : Type} (e : IdealEntry α) (err : Err) : Prop :=
  ∃ n, e.Numbered n ∧ ((1 ≤ e.home ∧ 1 ≤ n ∧ ¬ e.Readable ∧ err = .valueError) ∨ ((e.home = 0 ∨ n = 0) ∧ err = .assertionError))

theorem ecoKey_bad {b m : Int} (h : ¬ (1 ≤ b ∧ 1 ≤ m)) : ecoKey b m = .error .assertionError := by
  unfold ecoKey Key.ofNumbers Key.check
  rw [if_neg]
  rintro ⟨h1, h2⟩
  exact h ⟨h1, h2 m rfl⟩

theorem idealBody_bad {α : Type} {sort : List (Int × α) → List (Int × α)} {e : IdealEntry α} (st : RawStore α) (he : e.Electric)
    (hn : ∃ n, e.Numbered n) (h : ¬ e.Good) : ∃ err, e.Fails err ∧ idealBody sort e st = (st, some err) := by
  obtain ⟨n, hn⟩ := hn
  unfold idealBody idealStore
  simp only [idealMeter_ok hn]
  by_cases hk : 1 ≤ (e.home : Int) ∧ 1 ≤ (n : Int)
  · have hr : ¬ e.Readable := fun hr => h ⟨he, ⟨n, hn, by omega⟩, by omega, hr⟩
    rw [(ecoKey_ok _ _).1 hk]
    simp only [idealLoad_bad hr]
    exact ⟨_, ⟨n, hn, .inl ⟨by omega, by omega, hr, rfl⟩⟩, rfl⟩
  · rw [ecoKey_bad hk]
    exact ⟨_, ⟨n, hn, .inr ⟨by omega, rfl⟩⟩, rfl⟩

theorem idealPicked_mem {α : Type} {valid : List Int} {es₀ es₁ : List (IdealEntry α)} (hv : ∀ h : Nat, (h : Int) ∈ valid ↔ IdealBoth es₀ es₁ h)
    {es : List (IdealEntry α)} {e : IdealEntry α} : e ∈ idealPicked valid es ↔ e ∈ es ∧ e.Electric ∧ IdealBoth es₀ es₁ e.home := by
  unfold idealPicked
  rw [List.mem_filter, Bool.and_eq_true, decide_eq_true_eq, hv, idealElectric_iff]

/-! ### C106 -/

/-- C106. The conversion of a dataset whose files are named as documented raises nothing exactly if every electric file of a home that
has electric files in both folders has rows, readable times and numbers from 1. -/
theorem C106_succeeds {α : Type} {sort : List (Int × α) → List (Int × α)} (hs : SortsByTime sort) {tree : IdealTree α} {f₀ f₁ : Str}
    {es₀ es₁ : List (IdealEntry α)} (ht : tree.Has f₀ f₁ es₀ es₁) :
    (convertIdeal sort tree).2 = none ↔
      ∀ e ∈ es₀ ++ es₁, e.Electric → IdealBoth es₀ es₁ e.home → (∃ n, e.Numbered n ∧ 1 ≤ n) ∧ 1 ≤ e.home ∧ e.Readable := by
  obtain ⟨valid, hv, heq⟩ := convertIdeal_eq sort ht
  rw [heq, (ecoLoop_puts (fun b st h => idealBody_good hs st h) _ (fun b hb st h => ?_) _).1]
  · constructor
    · intro h e he hel hbo
      exact (h e ((idealPicked_mem hv).2 ⟨he, hel, hbo⟩)).2
    · intro h e he
      obtain ⟨he, hel, hbo⟩ := (idealPicked_mem hv).1 he
      exact ⟨hel, h e he hel hbo⟩
  · obtain ⟨he, hel, hbo⟩ := (idealPicked_mem hv).1 hb
    obtain ⟨err, _, h⟩ := idealBody_bad (sort := sort) st hel ((ht.named b he).numbered hel) h
    exact ⟨err, h⟩

/-- C106. Whether or not the conversion raises, whatever is in the store is the table of a file: an electric file of a home with electric
files in both folders, under the key of its home and the number of its sensor. -/
theorem C106_only {α : Type} {sort : List (Int × α) → List (Int × α)} (hs : SortsByTime sort) {tree : IdealTree α} {f₀ f₁ : Str}
    {es₀ es₁ : List (IdealEntry α)} (ht : tree.Has f₀ f₁ es₀ es₁) {k : Str} {t : RawTable α} (hk : (convertIdeal sort tree).1 k = some t) :
    ∃ e ∈ es₀ ++ es₁, ∃ n, e.Electric ∧ IdealBoth es₀ es₁ e.home ∧ e.Numbered n ∧ k = meterKey e.home n ∧ e.Stored t := by
  obtain ⟨valid, hv, heq⟩ := convertIdeal_eq sort ht
  rw [heq] at hk
  have := (ecoLoop_puts (fun b st h => idealBody_good hs st h) (idealPicked valid (es₀ ++ es₁)) (fun b hb st h => by
    obtain ⟨he, hel, hbo⟩ := (idealPicked_mem hv).1 hb
    obtain ⟨err, _, h⟩ := idealBody_bad (sort := sort) st hel ((ht.named b he).numbered hel) h
    exact ⟨err, h⟩) (fun _ => none)).2 k t hk
  rcases this with h | ⟨e, he, hg, ⟨n, hn, h1, hh, hkk⟩, hst⟩
  · cases h
  · obtain ⟨he, hel, hbo⟩ := (idealPicked_mem hv).1 he
    exact ⟨e, he, n, hel, hbo, hn, hkk, hst⟩

/-- C106. After a conversion that raised nothing, an electric file of a home with electric files in both folders is in the store under the key
of its home and the number of its sensor, if no later file has the same home and number. -/
theorem C106_stored_partial {α : Type} {sort : List (Int × α) → List (Int × α)} (hs : SortsByTime sort) {tree : IdealTree α} {f₀ f₁ : Str}
    {es₀ es₁ : List (IdealEntry α)} (ht : tree.Has f₀ f₁ es₀ es₁) (hok : (convertIdeal sort tree).2 = none)
    {pre post : List (IdealEntry α)} {e : IdealEntry α} (hsplit : es₀ ++ es₁ = pre ++ e :: post) (he : e.Electric)
    (hboth : IdealBoth es₀ es₁ e.home) {n : Nat} (hn : e.Numbered n)
    (hlast : ∀ e' ∈ post, e'.Electric → e'.Numbered n → e'.home ≠ e.home) :
    ∃ t, (convertIdeal sort tree).1 (meterKey e.home n) = some t ∧ e.Stored t := by
  have hgood := (C106_succeeds hs ht).1 hok
  obtain ⟨valid, hv, heq⟩ := convertIdeal_eq sort ht
  have hpick : idealPicked valid (es₀ ++ es₁) = idealPicked valid pre ++ e :: idealPicked valid post := by
    rw [hsplit]
    unfold idealPicked
    rw [List.filter_append, List.filter_cons_of_pos (by
      rw [Bool.and_eq_true, decide_eq_true_eq, hv, idealElectric_iff]; exact ⟨he, hboth⟩)]
  have hmem : ∀ {b}, b ∈ idealPicked valid pre ++ e :: idealPicked valid post → b ∈ es₀ ++ es₁ ∧ b.Electric ∧ IdealBoth es₀ es₁ b.home := by
    intro b hb
    rw [← hpick] at hb
    exact (idealPicked_mem hv).1 hb
  have hall : ∀ b ∈ idealPicked valid pre ++ e :: idealPicked valid post, b.Good := fun b hb => by
    obtain ⟨h1, h2, h3⟩ := hmem hb
    exact ⟨h2, hgood b h1 h2 h3⟩
  have hbad : ∀ l : List (IdealEntry α), (∀ b ∈ l, b.Good) → ∀ b ∈ l, ∀ st, ¬ b.Good → ∃ err, idealBody sort b st = (st, some err) :=
    fun l hl b hb st h => absurd (hl b hb) h
  have hpre : ∀ b ∈ idealPicked valid pre, b.Good := fun b hb => hall b (List.mem_append_left _ hb)
  have hpost : ∀ b ∈ idealPicked valid post, b.Good := fun b hb => hall b (List.mem_append_right _ (List.mem_cons_of_mem _ hb))
  have h1 := (ecoLoop_puts (fun b st h => idealBody_good hs st h) _ (hbad _ hpre) (fun _ => none)).1.2 hpre
  obtain ⟨k, t, ⟨m, hm, hm1, hh1, rfl⟩, hst, hput⟩ := idealBody_good hs (ecoLoop (idealBody sort) (idealPicked valid pre) (fun _ => none)).1
    (hall e (List.mem_append_right _ List.mem_cons_self))
  cases numbered_inj hn hm
  refine ⟨t, ?_, hst⟩
  rw [heq, hpick, ecoLoop_append_eq, if_pos h1, ecoLoop, hput]
  simp only
  rw [ecoLoop_keeps (fun b st h => idealBody_good hs st h) _ (hbad _ hpost)]
  · unfold RawStore.put
    rw [if_pos rfl]
  · rintro b hb hbg ⟨m, hbm, hbm1, hbh1, hkey⟩
    obtain ⟨ha, hb'⟩ := meterKey_inj hh1 hm1 hbh1 hbm1 hkey
    cases hb'
    have hbp : b ∈ post := (List.mem_filter.1 hb).1
    exact hlast b hbp hbg.1 hbm ha.symm

/-- C106. A conversion that raises does so at the first electric file of a home with electric files in both folders that has no rows or a time
that cannot be read (`ValueError`) or the number 0 (`AssertionError`); the electric files before it were converted. -/
theorem C106_raises {α : Type} {sort : List (Int × α) → List (Int × α)} (hs : SortsByTime sort) {tree : IdealTree α} {f₀ f₁ : Str}
    {es₀ es₁ : List (IdealEntry α)} (ht : tree.Has f₀ f₁ es₀ es₁) {err : Err} (herr : (convertIdeal sort tree).2 = some err) :
    ∃ pre e post, es₀ ++ es₁ = pre ++ e :: post ∧ e.Electric ∧ IdealBoth es₀ es₁ e.home ∧ e.Fails err ∧
      (∀ e' ∈ pre, e'.Electric → IdealBoth es₀ es₁ e'.home → e'.Good ∧ ∃ n t, e'.Numbered n ∧ (convertIdeal sort tree).1 (meterKey e'.home n) = some t) := by
  obtain ⟨valid, hv, heq⟩ := convertIdeal_eq sort ht
  rw [heq] at herr ⊢
  obtain ⟨pre, e, post, h1, h2, h3⟩ := ecoLoop_first herr
  have hnum : ∀ b ∈ idealPicked valid (es₀ ++ es₁), b.Electric ∧ IdealBoth es₀ es₁ b.home ∧ ∃ n, b.Numbered n := by
    intro b hb
    obtain ⟨ha, hb', hc⟩ := (idealPicked_mem hv).1 hb
    exact ⟨hb', hc, (ht.named b ha).numbered hb'⟩
  have hbad : ∀ b ∈ idealPicked valid (es₀ ++ es₁), ∀ st, ¬ b.Good → ∃ err, b.Fails err ∧ idealBody sort b st = (st, some err) :=
    fun b hb st h => idealBody_bad st (hnum b hb).1 (hnum b hb).2.2 h
  have hsub : ∀ b ∈ pre, b ∈ idealPicked valid (es₀ ++ es₁) := fun b hb => by rw [h1]; exact List.mem_append_left _ hb
  have hgp : ∀ b ∈ pre, b.Good := (ecoLoop_puts (fun b st h => idealBody_good hs st h) pre (fun b hb st h => by
    obtain ⟨x, _, hx⟩ := hbad b (hsub b hb) st h
    exact ⟨x, hx⟩) (fun _ => none)).1.1 h2
  have hem : e ∈ idealPicked valid (es₀ ++ es₁) := by rw [h1]; exact List.mem_append_right _ List.mem_cons_self
  have hne : ¬ e.Good := by
    intro hg
    obtain ⟨k, t, _, _, hp⟩ := idealBody_good hs (ecoLoop (idealBody sort) pre (fun _ => none)).1 hg
    rw [hp] at h3
    exact absurd (congrArg Prod.snd h3) (by simp)
  obtain ⟨err', hf, hb⟩ := hbad e hem (ecoLoop (idealBody sort) pre (fun _ => none)).1 hne
  rw [hb] at h3
  obtain ⟨hst, herr'⟩ := Prod.mk.inj h3
  cases herr'
  have h1' := h1
  unfold idealPicked at h1'
  obtain ⟨l₁, l₂, hl, hl1, hl2⟩ := List.filter_eq_append_iff.1 h1'
  obtain ⟨l₃, l₄, hl', hskip, hpe, hl4⟩ := List.filter_eq_cons_iff.1 hl2
  refine ⟨l₁ ++ l₃, e, l₄, by rw [hl, hl', List.append_assoc], (hnum e hem).1, (hnum e hem).2.1, hf, ?_⟩
  intro e' he' hel hbo
  have hpick : (idealElectric e'.category && decide ((e'.home : Int) ∈ valid)) = true := by
    rw [Bool.and_eq_true, decide_eq_true_eq, hv, idealElectric_iff]; exact ⟨hel, hbo⟩
  have hepre : e' ∈ pre := by
    rcases List.mem_append.1 he' with h | h
    · rw [← hl1]
      exact List.mem_filter.2 ⟨h, hpick⟩
    · exact absurd hpick (hskip e' h)
  refine ⟨hgp e' hepre, ?_⟩
  obtain ⟨k, ⟨n, hn, _, _, rfl⟩, hk⟩ := (ecoLoop_filled (fun b st h => idealBody_good hs st h) pre hgp (fun _ => none)).2 e' hepre
  rw [hst] at hk
  obtain ⟨t, ht'⟩ := Option.isSome_iff_exists.1 hk
  exact ⟨n, t, hn, ht'⟩

/-- C106. Fewer than two folders with the names `household_sensordata` and `rooms_appliance_sensordata`: `IndexError`, nothing stored. -/
theorem C106_folders {α : Type} (sort : List (Int × α) → List (Int × α)) (tree : IdealTree α)
    (h : (tree.walk.filter (fun f => f = "household_sensordata".toList ∨ f = "rooms_appliance_sensordata".toList)).length < 2) :
    convertIdeal sort tree = (fun _ => none, some .indexError) := by
  have hf : idealFolders tree = tree.walk.filter (fun f => f = "household_sensordata".toList ∨ f = "rooms_appliance_sensordata".toList) := by
    unfold idealFolders
    congr 1
    funext f
    rw [Bool.eq_iff_iff, Bool.or_eq_true, beq_iff_eq, beq_iff_eq, decide_eq_true_eq]
  rw [← hf] at h
  unfold convertIdeal
  match hm : idealFolders tree, h with
  | [], _ => rfl
  | [_], _ => rfl
  | _ :: _ :: l, h => simp at h; omega

/-- C106. The path of a directory above that of the data set, so that the folders are found by walking but are not directly in it:
`FileNotFoundError`, nothing stored. -/
theorem C106_parent {α : Type} (sort : List (Int × α) → List (Int × α)) (tree : IdealTree α)
    (h2 : 2 ≤ (tree.walk.filter (fun f => f = "household_sensordata".toList ∨ f = "rooms_appliance_sensordata".toList)).length)
    (hd : ∀ f, f = "household_sensordata".toList ∨ f = "rooms_appliance_sensordata".toList → tree.dir f = none) :
    convertIdeal sort tree = (fun _ => none, some .fileNotFound) := by
  have hf : idealFolders tree = tree.walk.filter (fun f => f = "household_sensordata".toList ∨ f = "rooms_appliance_sensordata".toList) := by
    unfold idealFolders
    congr 1
    funext f
    rw [Bool.eq_iff_iff, Bool.or_eq_true, beq_iff_eq, beq_iff_eq, decide_eq_true_eq]
  have hall : ∀ f ∈ idealFolders tree, tree.dir f = none := by
    intro f hm
    rw [hf, List.mem_filter, decide_eq_true_eq] at hm
    exact hd f hm.2
  rw [← hf] at h2
  unfold convertIdeal
  match hm : idealFolders tree, h2 with
  | [], h => simp at h
  | [_], h => simp at h
  | f :: g :: l, _ =>
    have h1 := hall f (by rw [hm]; simp)
    have h2 := hall g (by rw [hm]; simp)
    simp [idealValid, idealNames, h1, h2, idealHomes, ecoLoop, idealFolder]

theorem idealInt_err {s : Str} {e : Err} (h : idealInt s = .error e) : e = .valueError := by
  unfold idealInt at h
  split at h <;> cases h
  rfl

theorem idealHomes_err {names : List Str} {e : Err} (h : idealHomes names = .error e) : e = .valueError := by
  induction names with
  | nil => cases h
  | cons n ns ih =>
    rw [idealHomes] at h
    cases hp : idealParts n with
    | error e' =>
      rw [hp] at h
      cases h
      unfold idealParts at hp
      split at hp <;> cases hp
      rfl
    | ok p =>
      rw [hp] at h
      simp only at h
      split at h
      · cases hi : idealInt p.home with
        | error e' =>
          rw [hi] at h
          cases h
          exact idealInt_err hi
        | ok x =>
          rw [hi] at h
          cases hh : idealHomes ns with
          | error e' =>
            rw [hh] at h
            cases h
            exact ih hh
          | ok y => rw [hh] at h; cases h
      · exact ih h

theorem idealHomes_bad {names : List Str} {n : Str} (hn : n ∈ names) (hc : n.count '_' ≠ 4) : idealHomes names = .error .valueError := by
  induction names with
  | nil => cases hn
  | cons m ns ih =>
    cases hi : idealHomes (m :: ns) with
    | error e => rw [idealHomes_err hi]
    | ok l =>
      exfalso
      rw [idealHomes] at hi
      cases hp : idealParts m with
      | error e => rw [hp] at hi; cases hi
      | ok p =>
        rcases List.mem_cons.1 hn with rfl | hn
        · unfold idealParts at hp
          split at hp
          · rename_i heq
            have := splitChar_length '_' n
            rw [heq] at this
            simp only [List.length_cons, List.length_nil] at this
            omega
          · cases hp
        · have := ih hn
          rw [hp, this] at hi
          simp only at hi
          split at hi
          · cases hx : idealInt p.home <;> rw [hx] at hi <;> cases hi
          · cases hi

/-- C106. A file whose name does not have five parts, electric or not: `ValueError`, nothing stored. -/
theorem C106_name {α : Type} (sort : List (Int × α) → List (Int × α)) {tree : IdealTree α} {f₀ f₁ : Str} {fs : List Str}
    (hf : tree.walk.filter (fun f => f == "household_sensordata".toList || f == "rooms_appliance_sensordata".toList) = f₀ :: f₁ :: fs)
    {files : IdealFiles α} (hd : tree.dir f₀ = some files ∨ tree.dir f₁ = some files) {f : Str × List (Option Int × α)} (hm : f ∈ files)
    (hc : f.1.count '_' ≠ 4) : convertIdeal sort tree = (fun _ => none, some .valueError) := by
  have hf' : idealFolders tree = f₀ :: f₁ :: fs := hf
  unfold convertIdeal
  have hv : idealValid tree (idealFolders tree) = .error .valueError := by
    rw [hf', idealValid]
    rcases hd with hd | hd
    · have : idealHomes (idealNames tree f₀) = .error .valueError := idealHomes_bad (n := f.1) (by
        unfold idealNames; rw [hd]; exact List.mem_map_of_mem hm) hc
      rw [this]
      cases h1 : idealHomes (idealNames tree f₁) with
      | error e => rw [idealHomes_err h1]
      | ok l => rfl
    · have : idealHomes (idealNames tree f₁) = .error .valueError := idealHomes_bad (n := f.1) (by
        unfold idealNames; rw [hd]; exact List.mem_map_of_mem hm) hc
      rw [this]
  rw [hv]

/-- A name of five parts, `<home>_<room>_<sensor>_<category>_<rest>`. -/
def IdealFive (name home room sensor category : Str) : Prop :=
  ∃ rest, name = home ++ '_' :: (room ++ '_' :: (sensor ++ '_' :: (category ++ '_' :: rest))) ∧
    '_' ∉ home ∧ '_' ∉ room ∧ '_' ∉ sensor ∧ '_' ∉ category ∧ '_' ∉ rest

/-- A folder with an electric file of a home. -/
def IdealTree.ElectricIn {α : Type} (tree : IdealTree α) (folder : Str) (home : Nat) : Prop :=
  ∃ files, tree.dir folder = some files ∧ ∃ f ∈ files, ∃ room sensor category, IdealFive f.1 ("home".toList ++ formatNat home) room sensor category ∧
    (category = "electric-mains".toList ∨ category = "electric-appliance".toList)

theorem idealParts_five {name home room sensor category : Str} (h : IdealFive name home room sensor category) :
    ∃ rest, idealParts name = .ok ⟨home, room, sensor, category, rest⟩ := by
  obtain ⟨rest, rfl, h1, h2, h3, h4, h5⟩ := h
  refine ⟨rest, ?_⟩
  unfold idealParts
  rw [splitChar_append h1, splitChar_append h2, splitChar_append h3, splitChar_append h4, splitChar_none h5]

theorem idealHomes_mem {names : List Str} {hs : List Int} (h : idealHomes names = .ok hs) {name room sensor category : Str} {home : Nat}
    (hn : name ∈ names) (hf : IdealFive name ("home".toList ++ formatNat home) room sensor category)
    (hc : category = "electric-mains".toList ∨ category = "electric-appliance".toList) : (home : Int) ∈ hs := by
  induction names generalizing hs with
  | nil => cases hn
  | cons n ns ih =>
    rw [idealHomes] at h
    rcases List.mem_cons.1 hn with rfl | hn
    · obtain ⟨rest, hp⟩ := idealParts_five hf
      have he : idealElectric category = true := by
        unfold idealElectric
        rw [Bool.or_eq_true, beq_iff_eq, beq_iff_eq]
        exact hc
      rw [hp] at h
      simp only [he, if_true, idealInt_format home_digits] at h
      cases hh : idealHomes ns with
      | error e => rw [hh] at h; cases h
      | ok l => rw [hh] at h; cases h; exact List.mem_cons_self
    · cases hp : idealParts n with
      | error e => rw [hp] at h; cases h
      | ok p =>
        rw [hp] at h
        simp only at h
        split at h
        · cases hi : idealInt p.home with
          | error e => rw [hi] at h; cases h
          | ok x =>
            rw [hi] at h
            cases hh : idealHomes ns with
            | error e => rw [hh] at h; cases h
            | ok l => rw [hh] at h; cases h; exact List.mem_cons_of_mem _ (ih hh hn)
        · exact ih h hn

theorem idealFind_all {α : Type} {valid : List Int} {files : IdealFiles α} {items : List (IdealItem α)} (h : idealFind valid files = .ok items)
    {f : Str × List (Option Int × α)} (hf : f ∈ files) : ∃ o, idealItem valid f = .ok o := by
  induction files generalizing items with
  | nil => cases hf
  | cons g gs ih =>
    rw [idealFind] at h
    cases hi : idealItem valid g with
    | error e => rw [hi] at h; cases h
    | ok o =>
      rcases List.mem_cons.1 hf with rfl | hf
      · exact ⟨o, hi⟩
      · rw [hi] at h
        cases hg : idealFind valid gs with
        | error e => rw [hg] at h; cases h
        | ok l => exact ih hg hf

/-- C106. If the conversion raises nothing, every electric file of a home with electric files in both folders has a third part that begins
with `sensor` and a second part with a digit. -/
theorem C106_sensor {α : Type} (sort : List (Int × α) → List (Int × α)) {tree : IdealTree α} {f₀ f₁ : Str}
    (hf : tree.walk.filter (fun f => f == "household_sensordata".toList || f == "rooms_appliance_sensordata".toList) = [f₀, f₁])
    (hok : (convertIdeal sort tree).2 = none) {home : Nat} (h0 : tree.ElectricIn f₀ home) (h1 : tree.ElectricIn f₁ home)
    {folder : Str} (hfo : folder = f₀ ∨ folder = f₁) {files : IdealFiles α} (hd : tree.dir folder = some files)
    {f : Str × List (Option Int × α)} (hm : f ∈ files) {room sensor category : Str}
    (h5 : IdealFive f.1 ("home".toList ++ formatNat home) room sensor category)
    (hc : category = "electric-mains".toList ∨ category = "electric-appliance".toList) :
    (∃ s, sensor = "sensor".toList ++ s) ∧ ∃ c ∈ room, (digitVal c).isSome = true := by
  have hf' : idealFolders tree = [f₀, f₁] := hf
  have hmem : ∀ {g : Str} {l : List Int}, tree.ElectricIn g home → idealHomes (idealNames tree g) = .ok l → (home : Int) ∈ l := by
    rintro g l ⟨fs, hd, f, hf, r, s, c, h5, hc⟩ hl
    exact idealHomes_mem hl (by unfold idealNames; rw [hd]; exact List.mem_map_of_mem hf) h5 hc
  unfold convertIdeal at hok
  rw [hf'] at hok
  cases hv : idealValid tree [f₀, f₁] with
  | error e => rw [hv] at hok; cases hok
  | ok valid =>
    rw [hv] at hok
    simp only at hok
    have hval : (home : Int) ∈ valid := by
      rw [idealValid] at hv
      cases hl1 : idealHomes (idealNames tree f₁) with
      | error e => rw [hl1] at hv; cases hv
      | ok l1 =>
        cases hl0 : idealHomes (idealNames tree f₀) with
        | error e => rw [hl1, hl0] at hv; cases hv
        | ok l0 =>
          rw [hl1, hl0] at hv
          cases hv
          exact List.mem_filter.2 ⟨hmem h0 hl0, by simpa using hmem h1 hl1⟩
    have hfind : ∃ items, idealFind valid files = .ok items := by
      cases hi : idealFind valid files with
      | ok items => exact ⟨items, rfl⟩
      | error e =>
        exfalso
        have hbody : ∀ st, idealFolder sort tree valid folder st = (st, some e) := by
          intro st
          rw [idealFolder, hd]
          simp only [hi]
        rw [ecoLoop] at hok
        cases hb : idealFolder sort tree valid f₀ (fun _ => none) with
        | mk s o =>
          rw [hb] at hok
          cases o with
          | some e' => cases hok
          | none =>
            rcases hfo with rfl | rfl
            · rw [hbody] at hb; cases congrArg Prod.snd hb
            · simp only [ecoLoop, hbody] at hok
              cases hok
    obtain ⟨items, hi⟩ := hfind
    obtain ⟨o, ho⟩ := idealFind_all hi hm
    obtain ⟨rest, hp⟩ := idealParts_five h5
    have he : idealElectric category = true := by
      unfold idealElectric
      rw [Bool.or_eq_true, beq_iff_eq, beq_iff_eq]
      exact hc
    unfold idealItem at ho
    rw [hp] at ho
    simp only [he, if_true, idealInt_format home_digits, if_pos hval] at ho
    cases hr : idealInt room with
    | error e => rw [hr] at ho; cases ho
    | ok n =>
      rw [hr] at ho
      simp only at ho
      split at ho
      · rename_i h6
        refine ⟨⟨sensor.drop 6, by rw [← h6, List.take_append_drop]⟩, ?_⟩
        by_contra hno
        have : room.filter (fun c => (digitVal c).isSome) = [] := List.filter_eq_nil_iff.2 (fun c hc hd => hno ⟨c, hc, hd⟩)
        unfold idealInt at hr
        rw [this] at hr
        cases hr
      · cases ho

theorem idealItem_err {α : Type} {valid : List Int} {f : Str × List (Option Int × α)} {e : Err} (h : idealItem valid f = .error e) :
    e = .valueError ∨ e = .assertionError := by
  unfold idealItem at h
  cases hp : idealParts f.1 with
  | error e' =>
    rw [hp] at h
    cases h
    unfold idealParts at hp
    split at hp <;> cases hp
    exact .inl rfl
  | ok p =>
    rw [hp] at h
    simp only at h
    split at h
    · cases hi : idealInt p.home with
      | error e' =>
        rw [hi] at h
        cases h
        exact .inl (idealInt_err hi)
      | ok x =>
        rw [hi] at h
        simp only at h
        split at h
        · cases hr : idealInt p.room with
          | error e' =>
            rw [hr] at h
            cases h
            exact .inl (idealInt_err hr)
          | ok y =>
            rw [hr] at h
            simp only at h
            split at h
            · cases h
            · cases h
              exact .inr rfl
        · cases h
    · cases h

theorem idealFind_err {α : Type} {valid : List Int} {files : IdealFiles α} {e : Err} (h : idealFind valid files = .error e) :
    e = .valueError ∨ e = .assertionError := by
  induction files with
  | nil => cases h
  | cons f fs ih =>
    rw [idealFind] at h
    cases hi : idealItem valid f with
    | error e' =>
      rw [hi] at h
      cases h
      exact idealItem_err hi
    | ok o =>
      rw [hi] at h
      cases hf : idealFind valid fs with
      | error e' =>
        rw [hf] at h
        cases h
        exact ih hf
      | ok l => rw [hf] at h; cases h

theorem idealTimes_err {α : Type} {rows : List (Option Int × α)} {e : Err} (h : idealTimes rows = .error e) : e = .valueError := by
  induction rows with
  | nil => cases h
  | cons r rs ih =>
    obtain ⟨o, v⟩ := r
    cases o with
    | none => cases h; rfl
    | some t =>
      rw [idealTimes] at h
      cases hf : idealTimes rs with
      | error e' =>
        rw [hf] at h
        cases h
        exact ih hf
      | ok l => rw [hf] at h; cases h

theorem idealStore_err {α : Type} {sort : List (Int × α) → List (Int × α)} {i : IdealItem α} {st : RawStore α} {e : Err}
    (h : (idealStore sort i st).2 = some e) : e = .valueError ∨ e = .assertionError := by
  unfold idealStore at h
  split at h
  · cases h; exact .inl rfl
  · rename_i m _
    by_cases hk : 1 ≤ i.home ∧ 1 ≤ m
    · rw [(ecoKey_ok _ _).1 hk] at h
      simp only at h
      cases hl : idealLoad sort i.rows (idealColumns i.category) with
      | error e' =>
        rw [hl] at h
        cases h
        unfold idealLoad at hl
        split at hl
        · cases hl; exact .inl rfl
        · cases ht : idealTimes i.rows with
          | error e'' =>
            rw [ht] at hl
            cases hl
            exact .inl (idealTimes_err ht)
          | ok l => rw [ht] at hl; cases hl
      | ok t => rw [hl] at h; cases h
    · rw [ecoKey_bad hk] at h
      cases h
      exact .inr rfl

/-- C106. Whatever the names and the contents of the files: with the two folders in the path, the conversion raises nothing but
`ValueError` and `AssertionError`. -/
theorem C106_kinds {α : Type} (sort : List (Int × α) → List (Int × α)) {tree : IdealTree α} {f₀ f₁ : Str} {fs : List Str}
    (hf : tree.walk.filter (fun f => f == "household_sensordata".toList || f == "rooms_appliance_sensordata".toList) = f₀ :: f₁ :: fs)
    (hd : ∀ f ∈ f₀ :: f₁ :: fs, (tree.dir f).isSome = true) {err : Err} (herr : (convertIdeal sort tree).2 = some err) :
    err = .valueError ∨ err = .assertionError := by
  have hf' : idealFolders tree = f₀ :: f₁ :: fs := hf
  unfold convertIdeal at herr
  cases hv : idealValid tree (idealFolders tree) with
  | error e =>
    rw [hv] at herr
    cases herr
    rw [hf', idealValid] at hv
    cases h1 : idealHomes (idealNames tree f₁) with
    | error e' =>
      rw [h1] at hv
      cases hv
      exact .inl (idealHomes_err h1)
    | ok l =>
      rw [h1] at hv
      cases h0 : idealHomes (idealNames tree f₀) with
      | error e' =>
        rw [h0] at hv
        cases hv
        exact .inl (idealHomes_err h0)
      | ok l' => rw [h0] at hv; cases hv
  | ok valid =>
    rw [hv, hf'] at herr
    simp only at herr
    obtain ⟨pre, f, post, h1, _, h3⟩ := ecoLoop_first herr
    have hfm : f ∈ f₀ :: f₁ :: fs := by rw [h1]; simp
    obtain ⟨files, hfiles⟩ := Option.isSome_iff_exists.1 (hd f hfm)
    have h4 := congrArg Prod.snd h3
    unfold idealFolder at h4
    rw [hfiles] at h4
    simp only at h4
    cases hi : idealFind valid files with
    | error e =>
      rw [hi] at h4
      cases h4
      exact idealFind_err hi
    | ok items =>
      rw [hi] at h4
      simp only at h4
      obtain ⟨_, i, _, _, _, h5⟩ := ecoLoop_first h4
      exact idealStore_err (congrArg Prod.snd h5)

/-! ### Examples -/

/-- A sensor without a number is a `ValueError`, a third part that does not begin with `sensor` an `AssertionError`. -/
example : (convertIdeal (α := Rat) id ⟨["household_sensordata".toList, "rooms_appliance_sensordata".toList], fun _ =>
      some [("home1_hall2_sensorx_electric-mains_a.csv.gz".toList, [(some 1, 5)])]⟩).2 = some .valueError ∧
    (convertIdeal (α := Rat) id ⟨["household_sensordata".toList, "rooms_appliance_sensordata".toList], fun _ =>
      some [("home1_hall2_meter7_electric-mains_a.csv.gz".toList, [(some 1, 5)])]⟩).2 = some .assertionError := by
  refine ⟨?_, ?_⟩ <;> decide +kernel

/-- Home 62 with mains of two sensors in one folder and a kettle and a thermometer in the other; home 63 has mains only. -/
def idealMains : List (IdealEntry Rat) :=
  [⟨62, "hall".toList, 5, "2072c2073".toList, "electric-mains".toList, "electric-combined".toList, [(some 1500000000, 230), (some 700000000, 231)]⟩,
   ⟨63, "hall".toList, 6, "2090".toList, "electric-mains".toList, "electric-combined".toList, [(some 5, 230)]⟩]

def idealRooms : List (IdealEntry Rat) :=
  [⟨62, "kitchen".toList, 596, "2074".toList, "electric-appliance".toList, "kettle".toList, [(some 2000000000, 10)]⟩,
   ⟨62, "kitchen".toList, 596, "2075".toList, "room".toList, "temperature".toList, []⟩]

def idealTree (m r : List (IdealEntry Rat)) : IdealTree Rat :=
  ⟨["household_sensordata".toList, "x".toList, "rooms_appliance_sensordata".toList], fun f =>
    if f = "household_sensordata".toList then some (m.map (fun e => (e.name, e.rows)))
    else if f = "rooms_appliance_sensordata".toList then some (r.map (fun e => (e.name, e.rows))) else none⟩

theorem idealTree_has {m r : List (IdealEntry Rat)} (h : ∀ e ∈ m ++ r, e.WellNamed) :
    (idealTree m r).Has "household_sensordata".toList "rooms_appliance_sensordata".toList m r :=
  ⟨(by decide : (["household_sensordata".toList, "x".toList, "rooms_appliance_sensordata".toList] : List Str).filter
      (fun f => f == "household_sensordata".toList || f == "rooms_appliance_sensordata".toList) =
        ["household_sensordata".toList, "rooms_appliance_sensordata".toList]), by simp only [idealTree, if_true], by
    simp only [idealTree]
    rw [if_neg (by decide), if_pos trivial], h⟩

instance (e : IdealEntry Rat) : Decidable e.Electric := by unfold IdealEntry.Electric; infer_instance

theorem idealExample_named : ∀ e ∈ idealMains ++ idealRooms, e.WellNamed := by
  intro e he
  simp only [idealMains, idealRooms, List.cons_append, List.nil_append, List.mem_cons, List.not_mem_nil, or_false] at he
  rcases he with rfl | rfl | rfl | rfl
  · exact ⟨by decide, by decide, by decide, by decide, fun _ => ⟨2072, .inr ⟨rfl, "2073".toList, by decide +kernel⟩⟩⟩
  · exact ⟨by decide, by decide, by decide, by decide, fun _ => ⟨2090, .inl (by decide +kernel)⟩⟩
  · exact ⟨by decide, by decide, by decide, by decide, fun _ => ⟨2074, .inl (by decide +kernel)⟩⟩
  · exact ⟨by decide, by decide, by decide, by decide, fun h => absurd h (by decide)⟩

/-- The example is a tree of the theorems. -/
example : (idealTree idealMains idealRooms).Has "household_sensordata".toList "rooms_appliance_sensordata".toList idealMains idealRooms :=
  idealTree_has idealExample_named

/-- Columns and rows of a meter. -/
def idealSeen (st : RawStore Rat) (home meter : Nat) : Option (List (String × String) × List (Int × Rat)) :=
  (st (meterKey home meter)).map (fun t => (t.columns, t.rows))

/-- The mains and the kettle of home 62 are stored, the mains of home 63 are not, nor is the second sensor of the mains. -/
example : (convertIdeal stableSort (idealTree idealMains idealRooms)).2 = none ∧
    [(62, 2072), (62, 2074), (63, 2090), (62, 2073)].map (fun k => idealSeen (convertIdeal stableSort (idealTree idealMains idealRooms)).1 k.1 k.2) =
    [some ([("power", "apparent")], [(0, 231), (1000000000, 230)]), some ([("power", "active")], [(2000000000, 10)]), none, none] := by
  decide +kernel

/-- A name with six parts stops the conversion, whatever is measured. -/
example : ("home62_kitchen_a596_sensor2075_room_temperature.csv.gz".toList).count '_' ≠ 4 := by decide

/-- C106, negation. Mains with the sensors 2072 and 2073 and an appliance with the sensor 2072 have the same key: only the
appliance is in the store, and no error is raised. -/
theorem C106_overwritten_counterexample : ∃ (tree : IdealTree Rat) (f₀ f₁ : Str) (es₀ es₁ : List (IdealEntry Rat)), tree.Has f₀ f₁ es₀ es₁ ∧
    ∃ sort : List (Int × Rat) → List (Int × Rat), (convertIdeal sort tree).2 = none ∧ ∃ e ∈ es₀, e.Electric ∧ IdealBoth es₀ es₁ e.home ∧ e.Readable ∧
      ∀ k t, (convertIdeal sort tree).1 k = some t → ¬ e.Stored t := by
  let m : IdealEntry Rat := ⟨62, "hall".toList, 5, "2072c2073".toList, "electric-mains".toList, "combined".toList, [(some 0, 230)]⟩
  let a : IdealEntry Rat := ⟨62, "kitchen".toList, 596, "2072".toList, "electric-appliance".toList, "kettle".toList, [(some 0, 10)]⟩
  have hm : m.Numbered 2072 := .inr ⟨rfl, "2073".toList, by decide +kernel⟩
  have ha : a.Numbered 2072 := .inl (by decide +kernel)
  have hn : ∀ e ∈ [m] ++ [a], e.WellNamed := by
    intro e he
    simp only [List.cons_append, List.nil_append, List.mem_cons, List.not_mem_nil, or_false] at he
    rcases he with rfl | rfl
    · exact ⟨by decide, by decide, by decide, by decide, fun _ => ⟨2072, hm⟩⟩
    · exact ⟨by decide, by decide, by decide, by decide, fun _ => ⟨2072, ha⟩⟩
  refine ⟨idealTree [m] [a], _, _, [m], [a], idealTree_has hn, stableSort, by decide +kernel, m, List.mem_cons_self, .inl rfl,
    ⟨⟨m, List.mem_cons_self, .inl rfl, rfl⟩, a, List.mem_cons_self, .inr rfl, rfl⟩, ⟨by simp [m], by simp [m]⟩, ?_⟩
  intro k t hk hst
  obtain ⟨e, he, n, _, _, hen, rfl, _⟩ := C106_only stableSort_sorts (idealTree_has hn) hk
  have hkey : meterKey e.home n = meterKey 62 2072 := by
    simp only [List.cons_append, List.nil_append, List.mem_cons, List.not_mem_nil, or_false] at he
    rcases he with rfl | rfl
    · rw [numbered_inj hen hm]
    · rw [numbered_inj hen ha]
  rw [hkey] at hk
  have hc : idealSeen (convertIdeal stableSort (idealTree [m] [a])).1 62 2072 = some ([("power", "active")], [(0, 10)]) := by decide +kernel
  unfold idealSeen at hc
  rw [hk] at hc
  have h1 := hst.1
  rw [Option.map_some, Option.some.injEq, Prod.mk.injEq] at hc
  rw [hc.1, if_neg (by decide)] at h1
  exact absurd h1 (by decide)

/-- C106, negation. With the names of the documentation, `household_sensordata` and `rooms_appliance_sensensensordata`, nothing is
converted: `IndexError`. -/
theorem C106_documented_counterexample {α : Type} (sort : List (Int × α) → List (Int × α)) (dir : Str → Option (IdealFiles α)) :
    convertIdeal sort ⟨["household_sensordata".toList, "rooms_appliance_sensensensordata".toList], dir⟩ = (fun _ => none, some .indexError) :=
  C106_folders sort _ (by
    show ((["household_sensordata".toList, "rooms_appliance_sensensensordata".toList] : List Str).filter _).length < 2
    decide)

/-- The data set in a directory below the path. -/
example {α : Type} (sort : List (Int × α) → List (Int × α)) (files : IdealFiles α) :
    convertIdeal sort ⟨["ideal".toList, "household_sensordata".toList, "rooms_appliance_sensordata".toList],
      fun f => if f = "ideal".toList then some files else none⟩ = (fun _ => none, some .fileNotFound) :=
  C106_parent sort _ (by
    show 2 ≤ ((["ideal".toList, "household_sensordata".toList, "rooms_appliance_sensordata".toList] : List Str).filter _).length
    decide) (by
    rintro f (rfl | rfl)
    · show (if "household_sensordata".toList = "ideal".toList then some files else none) = none
      exact if_neg (by decide)
    · show (if "rooms_appliance_sensordata".toList = "ideal".toList then some files else none) = none
      exact if_neg (by decide))

end Nilmtk
