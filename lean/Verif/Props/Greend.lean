import Verif.Model.Greend
import Verif.Props.Columns
import Verif.Props.DataSet
/-!
C124: how the files of GREEND are divided into blocks, and what the conversion stores.
-/
namespace Nilmtk

/-! ### Specification -/

/-- `h` is the part of the line from the first `time` on. -/
def HeaderPart (line h : Str) : Prop :=
  ∃ a, line = a ++ h ∧ "time".toList <+: h ∧ ∀ a' h', line = a' ++ h' → "time".toList <+: h' → a.length ≤ a'.length

/-- There is no `time` in the line. -/
def NoHeader (line : Str) : Prop := ∀ a h, line = a ++ h → ¬ "time".toList <+: h

/-- What a line of a file is. -/
inductive GItem where
  | header (h : Str)
  | data (d : Str)
  | skipped

/-- The line, without null characters at its ends, is this. Lines are skipped in two files only (`special`). -/
def GItem.Describes (special : Bool) (l : Str) : GItem → Prop
  | .header h => HeaderPart (stripNul l) h ∧ ¬ (special = true ∧ greendBad h = true)
  | .data d => stripNul l = d ∧ NoHeader d ∧ ¬ (special = true ∧ greendBad d = true)
  | .skipped => NoHeader (stripNul l) ∧ special = true ∧ greendBad (stripNul l) = true

/-- The rest of a block with the header `t`: its data lines are `ds`, and its header may be repeated. -/
inductive GSegment (t : Str) : List GItem → List Str → Prop
  | nil : GSegment t [] []
  | data {items ds} (d : Str) : GSegment t items ds → GSegment t (.data d :: items) (d :: ds)
  | again {items ds} (h : Str) : stripWhite h = t → GSegment t items ds → GSegment t (.header h :: items) ds
  | skip {items ds} : GSegment t items ds → GSegment t (.skipped :: items) ds

/-- A file is divided into blocks (header and data lines): a block begins at each header that is another than that before. -/
inductive GSplit : Option Str → List GItem → List (Str × List Str) → Prop
  | nil {previous} : GSplit previous [] []
  | skip {previous items blocks} : GSplit previous items blocks → GSplit previous (.skipped :: items) blocks
  | block {previous items ds rest blocks} (h : Str) : previous ≠ some (stripWhite h) → GSegment (stripWhite h) items ds →
      GSplit (some (stripWhite h)) rest blocks → GSplit previous (.header h :: (items ++ rest)) ((h, ds) :: blocks)

/-- All blocks read and sorted, or the first error. -/
def readBlocks (read : List Str → Except Err GreendFrame) (sort : List (Int × (Str → Option Rat)) → List (Int × (Str → Option Rat))) :
    List (Str × List Str) → Except Err (List GreendFrame)
  | [] => .ok []
  | b :: bs =>
    match read (b.1 :: b.2) with
    | .error e => .error e
    | .ok f =>
      match readBlocks read sort bs with
      | .error e => .error e
      | .ok fs => .ok (⟨f.cols, sort f.rows⟩ :: fs)

/-- The names in the order in which they are first there. -/
def firstNames : List Str → List Str
  | [] => []
  | a :: l => a :: (firstNames l).filter (fun x => decide (x ≠ a))

/-- The order in which the files of a house are read: those whose names begin with `dataset`, with several processes by their paths, otherwise
as they are listed. -/
def FileOrder (useMp : Bool) (root house : Str) (files order : List (Str × List Str)) : Prop :=
  let paths := (files.filter (fun f => decide (f.1.take 7 = "dataset".toList))).map (fun f => (root ++ "/".toList ++ house ++ "/".toList ++ f.1, f.2))
  order.Perm paths ∧ (useMp = true → order.Pairwise (fun a b => strLe a.1 b.1 = true)) ∧ (useMp = false → order = paths)

/-- The table of a house made of frames: the columns in the order in which they are first there; one row for each time of the frames, with
increasing times; each of them a row of a frame, with nothing in the columns that the frame does not have. -/
structure TableOf (frames : List GreendFrame) (cols : List Str) (rows : List (Int × (Str → Option Rat))) : Prop where
  blocks : frames ≠ []
  columns : cols = firstNames (frames.flatMap GreendFrame.cols)
  increasing : rows.Pairwise (fun a b => a.1 < b.1)
  times : ∀ t, t ∈ rows.map Prod.fst ↔ ∃ f ∈ frames, t ∈ f.rows.map Prod.fst
  values : ∀ r ∈ rows, ∃ f ∈ frames, ∃ r' ∈ f.rows, r'.1 = r.1 ∧ ∀ c, r.2 c = if c ∈ f.cols then r'.2 c else none

/-- The house gives this table. -/
def HouseTable (read : Bool → List Str → Except Err GreendFrame) (sort : List (Int × (Str → Option Rat)) → List (Int × (Str → Option Rat)))
    (useMp : Bool) (root : Str) (h : Str × List (Str × List Str)) (t : List Str × List (Int × (Str → Option Rat))) : Prop :=
  ∃ order frames, FileOrder useMp root h.1 h.2 order ∧ List.Forall₂ (fun f fr => greendFile read sort f.1 f.2 = .ok fr) order frames ∧
    TableOf frames.flatten t.1 t.2

/-- The house gives this error: that of the first file that cannot be read, or a ValueError as there is not one block in its files. -/
def HouseFails (read : Bool → List Str → Except Err GreendFrame) (sort : List (Int × (Str → Option Rat)) → List (Int × (Str → Option Rat)))
    (useMp : Bool) (root : Str) (h : Str × List (Str × List Str)) (e : Err) : Prop :=
  ∃ order, FileOrder useMp root h.1 h.2 order ∧
    ((∃ pre f post, order = pre ++ f :: post ∧ (∀ g ∈ pre, ∃ fr, greendFile read sort g.1 g.2 = .ok fr) ∧ greendFile read sort f.1 f.2 = .error e) ∨
      ((∀ g ∈ order, greendFile read sort g.1 g.2 = .ok []) ∧ e = .valueError))

/-! ### Lines -/

theorem isIn_iff (needle hay : Str) : isIn needle hay = true ↔ ∃ a h, hay = a ++ h ∧ needle <+: h := by
  unfold isIn
  rw [List.any_eq_true]
  constructor
  · rintro ⟨t, ht, hp⟩
    obtain ⟨a, rfl⟩ := (List.mem_tails _ _).1 ht
    exact ⟨a, t, rfl, List.isPrefixOf_iff_prefix.1 hp⟩
  · rintro ⟨a, h, rfl, hp⟩
    exact ⟨h, (List.mem_tails _ _).2 ⟨a, rfl⟩, List.isPrefixOf_iff_prefix.2 hp⟩

theorem fromFind_spec {needle : Str} : ∀ {a h : Str}, needle ≠ [] → needle <+: h →
    (∀ a' h', a ++ h = a' ++ h' → needle <+: h' → a.length ≤ a'.length) → fromFind needle (a ++ h) = h := by
  intro a
  induction a with
  | nil =>
    intro h hn hp _
    rw [List.nil_append]
    cases h with
    | nil => rfl
    | cons c cs =>
      unfold fromFind
      rw [if_pos (List.isPrefixOf_iff_prefix.2 hp)]
  | cons c a ih =>
    intro h hn hp hmin
    rw [List.cons_append]
    unfold fromFind
    rw [if_neg]
    · apply ih hn hp
      intro a' h' he hp'
      have := hmin (c :: a') h' (by rw [List.cons_append, List.cons_append, he]) hp'
      simpa using this
    · intro hc
      have := hmin [] (c :: (a ++ h)) rfl (List.isPrefixOf_iff_prefix.1 hc)
      simp at this

theorem header_line {line h : Str} (hh : HeaderPart line h) : isIn "time".toList line = true ∧
    (if "time".toList.isPrefixOf line then line else fromFind "time".toList line) = h := by
  obtain ⟨a, rfl, hp, hmin⟩ := hh
  refine ⟨(isIn_iff _ _).2 ⟨a, h, rfl, hp⟩, ?_⟩
  by_cases hpre : ("time".toList.isPrefixOf (a ++ h)) = true
  · rw [if_pos hpre]
    have := hmin [] (a ++ h) rfl (List.isPrefixOf_iff_prefix.1 hpre)
    have ha : a = [] := List.length_eq_zero_iff.1 (by simpa using this)
    rw [ha, List.nil_append]
  · rw [if_neg hpre]
    exact fromFind_spec (by decide) hp hmin

theorem no_header_line {line : Str} (h : NoHeader line) : isIn "time".toList line = false := by
  rw [Bool.eq_false_iff]
  intro hc
  obtain ⟨a, t, he, hp⟩ := (isIn_iff _ _).1 hc
  exact h a t he hp

theorem special_neg {special b : Bool} (h : ¬ (special = true ∧ b = true)) : (special && b) = false := by
  cases special <;> cases b <;> simp at h ⊢

theorem greendLines_segment {read : List Str → Except Err GreendFrame}
    {sort : List (Int × (Str → Option Rat)) → List (Int × (Str → Option Rat))} {special : Bool} {t : Str} {items : List GItem} {ds : List Str}
    (hseg : GSegment t items ds) : ∀ (ls : List Str), List.Forall₂ (GItem.Describes special) ls items → ∀ (more : List Str) (b : List Str)
    (dfs : List GreendFrame), greendLines read sort special (ls ++ more) (some b) (some t) dfs =
      greendLines read sort special more (some (b ++ ds)) (some t) dfs := by
  induction hseg with
  | nil =>
    intro ls hls more b dfs
    cases hls
    rw [List.nil_append, List.append_nil]
  | data d hseg ih =>
    intro ls hls more b dfs
    cases hls with
    | cons hl hls =>
      obtain ⟨h1, h2, h3⟩ := hl
      rw [List.cons_append]
      conv_lhs => unfold greendLines
      simp only [h1, no_header_line h2, special_neg h3, Bool.false_eq_true, if_false]
      rw [ih _ hls, List.append_assoc]
      rfl
  | again h ht hseg ih =>
    intro ls hls more b dfs
    cases hls with
    | cons hl hls =>
      obtain ⟨h1, -⟩ := hl
      obtain ⟨k1, k2⟩ := header_line h1
      rw [List.cons_append]
      conv_lhs => unfold greendLines
      simp only [k1, k2, if_true, ht]
      exact ih _ hls more b dfs
  | skip hseg ih =>
    intro ls hls more b dfs
    cases hls with
    | cons hl hls =>
      obtain ⟨h1, h2, h3⟩ := hl
      rw [List.cons_append]
      conv_lhs => unfold greendLines
      simp only [no_header_line h1, h2, h3, Bool.and_self, Bool.false_eq_true, if_false, if_true]
      have := ih _ hls more b dfs
      rw [h2] at this
      exact this

/-- The frames so far and those to come. -/
def joinFrames (a : Except Err (List GreendFrame)) (b : Except Err (List GreendFrame)) : Except Err (List GreendFrame) :=
  match a with
  | .error e => .error e
  | .ok x => match b with
    | .error e => .error e
    | .ok y => .ok (x ++ y)

theorem joinFrames_nil (a : Except Err (List GreendFrame)) : joinFrames a (.ok []) = a := by
  cases a <;> simp [joinFrames]

theorem greendLines_split {read : List Str → Except Err GreendFrame}
    {sort : List (Int × (Str → Option Rat)) → List (Int × (Str → Option Rat))} {special : Bool} {previous : Option Str}
    {items : List GItem} {blocks : List (Str × List Str)}
    (hsplit : GSplit previous items blocks) : ∀ (ls : List Str), List.Forall₂ (GItem.Describes special) ls items →
    ∀ (block : Option (List Str)) (dfs : List GreendFrame), greendLines read sort special ls block previous dfs =
      joinFrames (greendProcess read sort block dfs) (readBlocks read sort blocks) := by
  induction hsplit with
  | nil =>
    intro ls hls block dfs
    cases hls
    unfold greendLines readBlocks
    rw [joinFrames_nil]
  | skip _ ih =>
    intro ls hls block dfs
    cases hls with
    | cons hl hls =>
      obtain ⟨h1, h2, h3⟩ := hl
      conv_lhs => unfold greendLines
      simp only [no_header_line h1, h2, h3, Bool.and_self, Bool.false_eq_true, if_false, if_true]
      have := ih _ hls block dfs
      rw [h2] at this
      exact this
  | @block previous items ds rest blocks h hne hseg _ ih =>
    intro ls hls block dfs
    cases hls with
    | @cons l _ ls _ hl hls =>
      obtain ⟨h1, h2⟩ := hl
      obtain ⟨k1, k2⟩ := header_line h1
      obtain ⟨l1, l2, hd1, hd2, rfl⟩ : ∃ l1 l2, List.Forall₂ (GItem.Describes special) l1 items ∧
          List.Forall₂ (GItem.Describes special) l2 rest ∧ ls = l1 ++ l2 := by
        refine ⟨ls.take items.length, ls.drop items.length, ?_, ?_, (List.take_append_drop _ _).symm⟩
        · have := List.forall₂_take items.length hls
          rwa [List.take_left] at this
        · have := List.forall₂_drop items.length hls
          rwa [List.drop_left] at this
      conv_lhs => unfold greendLines
      simp only [k1, k2, if_true, special_neg h2, Bool.false_eq_true, if_false]
      rw [if_neg hne]
      cases hp : greendProcess read sort block dfs with
      | error e => rfl
      | ok dfs' =>
        simp only
        rw [greendLines_segment hseg l1 hd1, ih l2 hd2]
        show joinFrames (greendProcess read sort (some (h :: ds)) dfs') _ = _
        rw [readBlocks]
        unfold greendProcess greendBlock
        simp only
        cases hr : read (h :: ds) with
        | error e => rfl
        | ok f =>
          simp only
          cases hb : readBlocks read sort blocks with
          | error e => rfl
          | ok fs => simp [joinFrames]

theorem split_exists (items : List GItem) : ∀ previous, (∃ t ds rest blocks seg, previous = some t ∧ items = seg ++ rest ∧ GSegment t seg ds ∧
      GSplit (some t) rest blocks) ∨ (previous = none ∧ ((∃ blocks, GSplit none items blocks) ∨
        ∃ pre d post, items = pre ++ .data d :: post ∧ ∀ x ∈ pre, x = .skipped)) := by
  induction items with
  | nil =>
    intro previous
    cases previous with
    | none => exact .inr ⟨rfl, .inl ⟨[], .nil⟩⟩
    | some t => exact .inl ⟨t, [], [], [], [], rfl, rfl, .nil, .nil⟩
  | cons x items ih =>
    intro previous
    cases previous with
    | some t =>
      refine .inl ?_
      cases x with
      | data d =>
        rcases ih (some t) with ⟨t', ds, rest, blocks, seg, h1, h2, h3, h4⟩ | ⟨h, -⟩
        · cases h1
          exact ⟨t, d :: ds, rest, blocks, _, rfl, by rw [h2]; rfl, .data d h3, h4⟩
        · cases h
      | skipped =>
        rcases ih (some t) with ⟨t', ds, rest, blocks, seg, h1, h2, h3, h4⟩ | ⟨h, -⟩
        · cases h1
          exact ⟨t, ds, rest, blocks, _, rfl, by rw [h2]; rfl, .skip h3, h4⟩
        · cases h
      | header h =>
        by_cases he : stripWhite h = t
        · rcases ih (some t) with ⟨t', ds, rest, blocks, seg, h1, h2, h3, h4⟩ | ⟨h, -⟩
          · cases h1
            exact ⟨t, ds, rest, blocks, _, rfl, by rw [h2]; rfl, .again h he h3, h4⟩
          · cases h
        · rcases ih (some (stripWhite h)) with ⟨t', ds, rest, blocks, seg, h1, h2, h3, h4⟩ | ⟨h, -⟩
          · cases h1
            refine ⟨t, [], .header h :: items, (h, ds) :: blocks, [], rfl, rfl, .nil, ?_⟩
            rw [h2]
            exact .block h (by simpa using fun e => he e.symm) h3 h4
          · cases h
    | none =>
      refine .inr ⟨rfl, ?_⟩
      cases x with
      | data d => exact .inr ⟨[], d, items, rfl, by simp⟩
      | skipped =>
        rcases ih none with ⟨t', ds, rest, blocks, seg, h1, -⟩ | ⟨-, h⟩
        · cases h1
        · rcases h with ⟨blocks, hb⟩ | ⟨pre, d, post, h1, h2⟩
          · exact .inl ⟨blocks, .skip hb⟩
          · refine .inr ⟨.skipped :: pre, d, post, by rw [h1]; rfl, ?_⟩
            intro y hy
            rcases List.mem_cons.1 hy with rfl | hy
            · rfl
            · exact h2 y hy
      | header h =>
        rcases ih (some (stripWhite h)) with ⟨t', ds, rest, blocks, seg, h1, h2, h3, h4⟩ | ⟨h, -⟩
        · cases h1
          refine .inl ⟨(h, ds) :: blocks, ?_⟩
          rw [h2]
          exact .block h (by simp) h3 h4
        · cases h

theorem greendLines_early {read : List Str → Except Err GreendFrame}
    {sort : List (Int × (Str → Option Rat)) → List (Int × (Str → Option Rat))} {special : Bool} (pre : List GItem) (hpre : ∀ x ∈ pre, x = .skipped)
    (d : Str) (post : List GItem) : ∀ (ls : List Str), List.Forall₂ (GItem.Describes special) ls (pre ++ .data d :: post) →
    greendLines read sort special ls none none [] = .error .attributeError := by
  induction pre with
  | nil =>
    intro ls hls
    cases hls with
    | cons hl hls =>
      obtain ⟨h1, h2, h3⟩ := hl
      conv_lhs => unfold greendLines
      simp only [h1, no_header_line h2, special_neg h3, Bool.false_eq_true, if_false]
  | cons x pre ih =>
    intro ls hls
    obtain rfl := hpre x List.mem_cons_self
    cases hls with
    | cons hl hls =>
      obtain ⟨h1, h2, h3⟩ := hl
      have := ih (fun y hy => hpre y (List.mem_cons_of_mem _ hy)) _ hls
      conv_lhs => unfold greendLines
      simp only [no_header_line h1, h2, h3, Bool.and_self, Bool.false_eq_true, if_false, if_true]
      rw [h2] at this
      exact this

/-- C124. A file is divided into blocks, each of them read by itself with its header: a block begins where the header is another than that
before, whatever is in front of the header in its line, and has all data lines up to the next block, in this order; a header that is repeated
begins no block. If data come before any header, the conversion is an AttributeError. -/
theorem C124_blocks (read : Bool → List Str → Except Err GreendFrame)
    (sort : List (Int × (Str → Option Rat)) → List (Int × (Str → Option Rat))) (filename : Str) (lines : List Str) (items : List GItem)
    (hitems : List.Forall₂ (GItem.Describes (greendSpecial filename)) lines items) :
    (∃ blocks, GSplit none items blocks ∧
      greendFile read sort filename lines = readBlocks (read (greendStrict filename)) sort blocks) ∨
    ((∃ pre d post, items = pre ++ .data d :: post ∧ ∀ x ∈ pre, x = .skipped) ∧
      greendFile read sort filename lines = .error .attributeError) := by
  rcases split_exists items none with ⟨t, _, _, _, _, h, -⟩ | ⟨-, h⟩
  · cases h
  · rcases h with ⟨blocks, hb⟩ | ⟨pre, d, post, h1, h2⟩
    · refine .inl ⟨blocks, hb, ?_⟩
      unfold greendFile
      rw [greendLines_split hb lines hitems]
      unfold greendProcess joinFrames
      cases readBlocks (read (greendStrict filename)) sort blocks <;> simp
    · refine .inr ⟨⟨pre, d, post, h1, h2⟩, ?_⟩
      rw [h1] at hitems
      exact greendLines_early pre h2 d post lines hitems

/-- C124. No data line is lost or changes its place: the data lines of the blocks one after another are those of
the file. -/
theorem C124_data_lines {previous : Option Str} {items : List GItem} {blocks : List (Str × List Str)} (h : GSplit previous items blocks) :
    blocks.flatMap Prod.snd = items.filterMap (fun x => match x with | .data d => some d | _ => none) := by
  have hseg : ∀ {t items ds}, GSegment t items ds → ds = items.filterMap (fun x => match x with | .data d => some d | _ => none) := by
    intro t items ds h
    induction h with
    | nil => rfl
    | data d _ ih => rw [List.filterMap_cons]; simp only; rw [← ih]
    | again h _ _ ih => rw [List.filterMap_cons]; exact ih
    | skip _ ih => rw [List.filterMap_cons]; exact ih
  induction h with
  | nil => rfl
  | skip _ ih => rw [List.filterMap_cons]; exact ih
  | block h _ hs _ ih =>
    rw [List.flatMap_cons, ih, List.filterMap_cons]
    simp only
    rw [List.filterMap_append, ← hseg hs]

/-! ### Tables -/

theorem firstNames_mem (l : List Str) (x : Str) : x ∈ firstNames l ↔ x ∈ l := by
  induction l with
  | nil => rfl
  | cons a l ih =>
    unfold firstNames
    rw [List.mem_cons, List.mem_cons, List.mem_filter, ih, decide_eq_true_eq]
    by_cases h : x = a <;> simp [h]

theorem unionCols_eq (l : List Str) : ∀ acc, unionCols acc l = acc ++ (firstNames l).filter (fun x => decide (x ∉ acc)) := by
  induction l with
  | nil => intro acc; simp [unionCols, firstNames]
  | cons a l ih =>
    intro acc
    unfold unionCols firstNames
    rw [ih]
    by_cases h : a ∈ acc
    · rw [if_pos h, List.filter_cons_of_neg (by simpa using h), List.filter_filter]
      congr 1
      apply List.filter_congr
      intro x _
      by_cases hx : x ∈ acc
      · simp [hx]
      · have : x ≠ a := fun e => hx (e ▸ h)
        simp [hx, this]
    · rw [if_neg h, List.filter_cons_of_pos (by simpa using h), List.filter_filter, List.append_assoc]
      congr 1
      rw [List.singleton_append]
      congr 1
      apply List.filter_congr
      intro x _
      simp only [List.mem_append, List.mem_singleton, not_or, ← Bool.decide_and]

theorem greendConcat_spec {sort : List (Int × (Str → Option Rat)) → List (Int × (Str → Option Rat))} (hs : SortsByTime sort)
    (frames : List GreendFrame) : (frames = [] ∧ greendConcat sort frames = .error .valueError) ∨
      ∃ cols rows, greendConcat sort frames = .ok (cols, rows) ∧ TableOf frames cols rows := by
  by_cases hf : frames = []
  · exact .inl ⟨hf, by rw [hf]; rfl⟩
  · refine .inr ?_
    unfold greendConcat
    rw [if_neg (by simpa using hf)]
    refine ⟨_, _, rfl, hf, ?_, ?_, ?_, ?_⟩
    · rw [unionCols_eq]
      simp
    · obtain ⟨h1, h2, -, -⟩ := dropDups_spec (sort (frames.flatMap (fun f => f.rows.map (fun r => (r.1, fun c => if c ∈ f.cols then r.2 c else none))))) []
      have h3 := (hs.sorted _).sublist h1
      have h4 := List.pairwise_map.1 h2
      exact (h3.and h4).imp (fun h => lt_of_le_of_ne h.1 h.2)
    · intro t
      rw [(dropDups_spec _ []).2.2.1 t, ((hs.perm _).map _).mem_iff]
      simp only [List.mem_map, List.mem_flatMap, List.not_mem_nil, not_false_eq_true, and_true]
      constructor
      · rintro ⟨_, ⟨f, hf, r, hr, rfl⟩, rfl⟩
        exact ⟨f, hf, r, hr, rfl⟩
      · rintro ⟨f, hf, r, hr, rfl⟩
        exact ⟨_, ⟨f, hf, r, hr, rfl⟩, rfl⟩
    · intro r hr
      have := (hs.perm _).mem_iff.1 ((dropDups_spec _ []).1.subset hr)
      obtain ⟨f, hf, h⟩ := List.mem_flatMap.1 this
      obtain ⟨r', hr', rfl⟩ := List.mem_map.1 h
      exact ⟨f, hf, r', hr', rfl, fun c => rfl⟩

theorem greendFrames_spec (read : Bool → List Str → Except Err GreendFrame)
    (sort : List (Int × (Str → Option Rat)) → List (Int × (Str → Option Rat))) : ∀ order : List (Str × List Str),
    (∃ frames, List.Forall₂ (fun f fr => greendFile read sort f.1 f.2 = .ok fr) order frames ∧ greendFrames read sort order = .ok frames.flatten) ∨
    ∃ e pre f post, order = pre ++ f :: post ∧ (∀ g ∈ pre, ∃ fr, greendFile read sort g.1 g.2 = .ok fr) ∧
      greendFile read sort f.1 f.2 = .error e ∧ greendFrames read sort order = .error e := by
  intro order
  induction order with
  | nil => exact .inl ⟨[], .nil, rfl⟩
  | cons f fs ih =>
    unfold greendFrames
    cases hf : greendFile read sort f.1 f.2 with
    | error e => exact .inr ⟨e, [], f, fs, rfl, by simp, hf, rfl⟩
    | ok a =>
      rcases ih with ⟨frames, h1, h2⟩ | ⟨e, pre, g, post, h1, h2, h3, h4⟩
      · refine .inl ⟨a :: frames, .cons hf h1, ?_⟩
        rw [h2]
        rfl
      · refine .inr ⟨e, f :: pre, g, post, by rw [h1]; rfl, ?_, h3, ?_⟩
        · intro x hx
          rcases List.mem_cons.1 hx with rfl | hx
          · exact ⟨a, hf⟩
          · exact h2 x hx
        · rw [h4]

theorem greendTargets_eq (root house : Str) (files : List (Str × List Str)) : greendTargets root house files =
    (files.filter (fun f => decide (f.1.take 7 = "dataset".toList))).map (fun f => (root ++ "/".toList ++ house ++ "/".toList ++ f.1, f.2)) := by
  unfold greendTargets
  congr 1
  apply List.filter_congr
  intro f _
  rw [Bool.eq_iff_iff, List.isPrefixOf_iff_prefix, decide_eq_true_eq, List.prefix_iff_eq_take]
  exact eq_comm

instance : Std.Total (fun a b : Str × List Str => strLe a.1 b.1 = true) := ⟨fun a b => strLe_total a.1 b.1⟩
instance : IsTrans (Str × List Str) (fun a b => strLe a.1 b.1 = true) := ⟨fun _ _ _ h1 h2 => strLe_trans h1 h2⟩
instance : Std.Total (fun a b : Str × List (Str × List Str) => strLe a.1 b.1 = true) := ⟨fun a b => strLe_total a.1 b.1⟩
instance : IsTrans (Str × List (Str × List Str)) (fun a b => strLe a.1 b.1 = true) := ⟨fun _ _ _ h1 h2 => strLe_trans h1 h2⟩

theorem greendHouse_spec {read : Bool → List Str → Except Err GreendFrame}
    {sort : List (Int × (Str → Option Rat)) → List (Int × (Str → Option Rat))} (hs : SortsByTime sort) (useMp : Bool) (root : Str)
    (h : Str × List (Str × List Str)) :
    (∃ t, greendHouse read sort useMp root h.1 h.2 = .ok t ∧ HouseTable read sort useMp root h t) ∨
    ∃ e, greendHouse read sort useMp root h.1 h.2 = .error e ∧ HouseFails read sort useMp root h e := by
  obtain ⟨order, ho, horder⟩ : ∃ order, order = (if useMp then (greendTargets root h.1 h.2).insertionSort (fun a b => strLe a.1 b.1 = true)
      else greendTargets root h.1 h.2) ∧ FileOrder useMp root h.1 h.2 order := by
    refine ⟨_, rfl, ?_⟩
    unfold FileOrder
    simp only
    rw [← greendTargets_eq]
    cases useMp with
    | true =>
      rw [if_pos rfl]
      exact ⟨List.perm_insertionSort _ _, fun _ => List.pairwise_insertionSort _ _, fun h => by cases h⟩
    | false =>
      rw [if_neg (by decide)]
      exact ⟨List.Perm.refl _, fun h => (by cases h), fun _ => rfl⟩
  unfold greendHouse
  simp only
  rw [← ho]
  rcases greendFrames_spec read sort order with ⟨frames, h1, h2⟩ | ⟨e, pre, f, post, h1, h2, h3, h4⟩
  · rw [h2]
    simp only
    rcases greendConcat_spec hs frames.flatten with ⟨h3, h4⟩ | ⟨cols, rows, h3, h4⟩
    · refine .inr ⟨_, h4, order, horder, .inr ⟨?_, rfl⟩⟩
      clear ho horder h2 h4
      induction h1 with
      | nil => simp
      | cons hf _ ih =>
        rw [List.flatten_cons, List.append_eq_nil_iff] at h3
        intro g hg
        rcases List.mem_cons.1 hg with rfl | hg
        · rw [hf, h3.1]
        · exact ih h3.2 g hg
    · exact .inl ⟨_, h3, order, frames, horder, h1, h4⟩
  · rw [h4]
    exact .inr ⟨e, rfl, order, horder, .inl ⟨pre, f, post, h1, h2, h3⟩⟩

theorem greendPut_spec (b : Nat) (hb : 1 ≤ b) (rows : List (Int × (Str → Option Rat))) :
    ∀ (cols : List Str) (chan : Nat) (st : RawStore (Option Rat)), 1 ≤ chan →
    ∃ st', greendPut b rows cols chan st = (st', none) ∧
      (∀ (i : Nat) (c : Str), cols[i]? = some c →
        st' (meterKey b (chan + i)) = some ⟨[("power", "active")], rows.map (fun r => (r.1, r.2 c))⟩) ∧
      ∀ k, (∀ i, i < cols.length → k ≠ meterKey b (chan + i)) → st' k = st k := by
  intro cols
  induction cols with
  | nil =>
    intro chan st _
    exact ⟨st, rfl, fun i c h => by simp at h, fun k _ => rfl⟩
  | cons c cs ih =>
    intro chan st hc
    obtain ⟨h1, h2⟩ := key_numbers b chan hb hc
    obtain ⟨st', k1, k2, k3⟩ := ih (chan + 1)
      (st.put (meterKey b chan) ⟨[("power", "active")], rows.map (fun r => (r.1, r.2 c))⟩) (by omega)
    refine ⟨st', ?_, ?_, ?_⟩
    · unfold greendPut
      rw [h1]
      simp only
      rw [h2]
      exact k1
    · intro i x hx
      cases i with
      | zero =>
        simp only [List.getElem?_cons_zero, Option.some.injEq] at hx
        rw [k3]
        · unfold RawStore.put
          rw [Nat.add_zero, if_pos rfl, hx]
        · intro j _ he
          have := (meterKey_inj hb (by omega) hb (by omega) he).2
          omega
      | succ i =>
        rw [List.getElem?_cons_succ] at hx
        have := k2 i x hx
        rwa [show chan + 1 + i = chan + (i + 1) by omega] at this
    · intro k hk
      rw [k3]
      · unfold RawStore.put
        rw [if_neg]
        have := hk 0 (by simp)
        simpa using this
      · intro i hi
        have := hk (i + 1) (by simpa using hi)
        rwa [show chan + 1 + i = chan + (i + 1) by omega]

theorem greendHouses_spec {read : Bool → List Str → Except Err GreendFrame}
    {sort : List (Int × (Str → Option Rat)) → List (Int × (Str → Option Rat))} (hs : SortsByTime sort) (useMp : Bool) (root : Str) :
    ∀ (houses : List (Str × List (Str × List Str))) (n : Nat) (st : RawStore (Option Rat)),
    ∃ (st' : RawStore (Option Rat)) (err : Option Err) (tables : List (List Str × List (Int × (Str → Option Rat)))), greendHouses read sort useMp root houses n st = (st', err) ∧
      (∀ (i : Nat) t, tables[i]? = some t → ∃ h, houses[i]? = some h ∧ HouseTable read sort useMp root h t) ∧
      (∀ (i j : Nat) t c, tables[i]? = some t → t.1[j]? = some c →
        st' (meterKey (n + i + 1) (j + 1)) = some ⟨[("power", "active")], t.2.map (fun r => (r.1, r.2 c))⟩) ∧
      (∀ k, (∀ (i j : Nat) t c, tables[i]? = some t → t.1[j]? = some c → k ≠ meterKey (n + i + 1) (j + 1)) → st' k = st k) ∧
      (err = none → tables.length = houses.length) ∧
      (∀ e, err = some e → ∃ h, houses[tables.length]? = some h ∧ HouseFails read sort useMp root h e) := by
  intro houses
  induction houses with
  | nil =>
    intro n st
    exact ⟨st, none, [], rfl, fun i t h => by simp at h, fun i j t c h => by simp at h, fun k _ => rfl, fun _ => rfl, fun e h => by cases h⟩
  | cons h houses ih =>
    intro n st
    unfold greendHouses
    rcases greendHouse_spec (read := read) hs useMp root h with ⟨t, h1, h2⟩ | ⟨e, h1, h2⟩
    · obtain ⟨st1, k1, k2, k3⟩ := greendPut_spec (n + 1) (by omega) t.2 t.1 1 st (by omega)
      obtain ⟨st', err, tables, i1, i2, i3, i4, i5, i6⟩ := ih (n + 1) st1
      refine ⟨st', err, t :: tables, ?_, ?_, ?_, ?_, ?_, ?_⟩
      · rw [h1]
        simp only
        rw [k1]
        exact i1
      · intro i t' ht
        cases i with
        | zero =>
          simp only [List.getElem?_cons_zero, Option.some.injEq] at ht ⊢
          exact ⟨h, rfl, ht ▸ h2⟩
        | succ i =>
          simp only [List.getElem?_cons_succ] at ht ⊢
          exact i2 i t' ht
      · intro i j t' c ht hc
        cases i with
        | zero =>
          simp only [List.getElem?_cons_zero, Option.some.injEq] at ht
          subst ht
          rw [i4]
          · rw [Nat.add_zero, Nat.add_comm j 1]
            exact k2 j c hc
          · intro i' j' t' c' _ _ he
            have := (meterKey_inj (by omega) (by omega) (by omega) (by omega) he).1
            omega
        | succ i =>
          simp only [List.getElem?_cons_succ] at ht
          have := i3 i j t' c ht hc
          rwa [show n + 1 + i + 1 = n + (i + 1) + 1 by omega] at this
      · intro k hk
        rw [i4]
        · apply k3
          intro i hi
          have := hk 0 i t t.1[i] rfl (List.getElem?_eq_getElem hi)
          rwa [Nat.add_zero, Nat.add_comm i 1] at this
        · intro i j t' c ht hc
          have := hk (i + 1) j t' c (by simpa using ht) hc
          rwa [show n + (i + 1) + 1 = n + 1 + i + 1 by omega] at this
      · intro he
        rw [List.length_cons, List.length_cons, i5 he]
      · intro e he
        obtain ⟨x, hx⟩ := i6 e he
        exact ⟨x, by simpa using hx⟩
    · rw [h1]
      refine ⟨st, some e, [], rfl, fun i t h => by simp at h, fun i j t c h => by simp at h, fun k _ => rfl, fun h => (by cases h), ?_⟩
      intro e' he
      cases he
      exact ⟨h, rfl, h2⟩

/-- C124. The directories are buildings in the order of their names, and the columns of the files of a house are its meters, in the order in
which they are first there. Each meter has one row for each time of any block of the house, with increasing times, and the value is that of a
row of a block at this time, or nothing if that block does not have the column. Nothing else is stored. The conversion ends at the first house
with a file that cannot be read or without blocks, and what was stored before stays. -/
theorem C124_stored {read : Bool → List Str → Except Err GreendFrame}
    {sort : List (Int × (Str → Option Rat)) → List (Int × (Str → Option Rat))} (hs : SortsByTime sort) (useMp : Bool) (root : Str)
    (dir : List GreendEntry) : ∃ (st : RawStore (Option Rat)) (err : Option Err) (tables : List (List Str × List (Int × (Str → Option Rat))))
      (houses : List (Str × List (Str × List Str))), convertGreend read sort useMp root dir = (st, err) ∧
      houses.Perm (dir.filterMap (fun e => e.2.map (fun fs => (e.1, fs)))) ∧ houses.Pairwise (fun a b => strLe a.1 b.1 = true) ∧
      (∀ (i : Nat) t, tables[i]? = some t → ∃ h, houses[i]? = some h ∧ HouseTable read sort useMp root h t) ∧
      (∀ (i j : Nat) t c, tables[i]? = some t → t.1[j]? = some c →
        st (meterKey (i + 1) (j + 1)) = some ⟨[("power", "active")], t.2.map (fun r => (r.1, r.2 c))⟩) ∧
      (∀ k, (∀ (i j : Nat) t c, tables[i]? = some t → t.1[j]? = some c → k ≠ meterKey (i + 1) (j + 1)) → st k = none) ∧
      (err = none → tables.length = houses.length) ∧
      (∀ e, err = some e → ∃ h, houses[tables.length]? = some h ∧ HouseFails read sort useMp root h e) := by
  obtain ⟨st', err, tables, i1, i2, i3, i4, i5, i6⟩ := greendHouses_spec (read := read) hs useMp root
    ((dir.filterMap (fun e => e.2.map (fun fs => (e.1, fs)))).insertionSort (fun a b => strLe a.1 b.1 = true)) 0 (fun _ => none)
  refine ⟨st', err, tables, _, i1, List.perm_insertionSort _ _, List.pairwise_insertionSort _ _, i2, ?_, ?_, i5, i6⟩
  · intro i j t c ht hc
    have := i3 i j t c ht hc
    rwa [Nat.zero_add] at this
  · intro k hk
    apply i4
    intro i j t c ht hc
    rw [Nat.zero_add]
    exact hk i j t c ht hc

theorem strLe_append (p a b : Str) : strLe (p ++ a) (p ++ b) = strLe a b := by
  induction p with
  | nil => rfl
  | cons c p ih =>
    rw [List.cons_append, List.cons_append, strLe, if_pos rfl, ih]

/-- C124. It makes no difference whether the files are read by several processes, if the files of each house are listed in the order of their
names. -/
theorem C124_processes_partial (read : Bool → List Str → Except Err GreendFrame)
    (sort : List (Int × (Str → Option Rat)) → List (Int × (Str → Option Rat))) (root : Str) (dir : List GreendEntry)
    (hlist : ∀ e ∈ dir, ∀ files, e.2 = some files → files.Pairwise (fun a b => strLe a.1 b.1 = true)) :
    convertGreend read sort true root dir = convertGreend read sort false root dir := by
  have house : ∀ h : Str × List (Str × List Str), h.2.Pairwise (fun a b => strLe a.1 b.1 = true) →
      greendHouse read sort true root h.1 h.2 = greendHouse read sort false root h.1 h.2 := by
    intro h hh
    unfold greendHouse
    simp only [if_true, Bool.false_eq_true, if_false]
    rw [List.Pairwise.insertionSort_eq]
    unfold greendTargets
    rw [List.pairwise_map]
    refine (hh.sublist List.filter_sublist).imp ?_
    intro a b hab
    simp only
    rw [strLe_append]
    exact hab
  have loop : ∀ (houses : List (Str × List (Str × List Str))), (∀ h ∈ houses, h.2.Pairwise (fun a b => strLe a.1 b.1 = true)) →
      ∀ n st, greendHouses read sort true root houses n st = greendHouses read sort false root houses n st := by
    intro houses
    induction houses with
    | nil => intro _ n st; rfl
    | cons h houses ih =>
      intro hh n st
      unfold greendHouses
      rw [house h (hh h List.mem_cons_self)]
      cases greendHouse read sort false root h.1 h.2 with
      | error e => rfl
      | ok t =>
        simp only
        cases greendPut (n + 1) t.2 t.1 1 st with
        | mk st' err =>
          cases err with
          | some e => rfl
          | none =>
            simp only
            exact ih (fun x hx => hh x (List.mem_cons_of_mem _ hx)) (n + 1) st'
  apply loop
  intro h hh
  rw [(List.perm_insertionSort _ _).mem_iff, List.mem_filterMap] at hh
  obtain ⟨e, he, hm⟩ := hh
  obtain ⟨fs, hfs, rfl⟩ := Option.map_eq_some_iff.1 hm
  exact hlist e he fs hfs

theorem fromFind_first {needle : Str} : ∀ {s : Str}, isIn needle s = true → needle ≠ [] →
    ∃ a, s = a ++ fromFind needle s ∧ needle <+: fromFind needle s ∧
      ∀ a' h', s = a' ++ h' → needle <+: h' → a.length ≤ a'.length := by
  intro s
  induction s with
  | nil =>
    intro h hn
    obtain ⟨a, t, he, hp⟩ := (isIn_iff _ _).1 h
    obtain ⟨rfl, rfl⟩ := List.append_eq_nil_iff.1 he.symm
    exact absurd (List.prefix_nil.1 hp) hn
  | cons c cs ih =>
    intro h hn
    by_cases hp : needle.isPrefixOf (c :: cs) = true
    · unfold fromFind
      rw [if_pos hp]
      exact ⟨[], rfl, List.isPrefixOf_iff_prefix.1 hp, fun _ _ _ _ => Nat.zero_le _⟩
    · have hin : isIn needle cs = true := by
        obtain ⟨a, t, he, hpt⟩ := (isIn_iff _ _).1 h
        cases a with
        | nil => rw [List.nil_append] at he; rw [← he] at hpt; exact absurd (List.isPrefixOf_iff_prefix.2 hpt) hp
        | cons x a =>
          rw [List.cons_append, List.cons.injEq] at he
          exact (isIn_iff _ _).2 ⟨a, t, he.2, hpt⟩
      obtain ⟨a, h1, h2, h3⟩ := ih hin hn
      unfold fromFind
      rw [if_neg hp]
      refine ⟨c :: a, by rw [List.cons_append, ← h1], h2, ?_⟩
      intro a' h' he hp'
      cases a' with
      | nil => rw [List.nil_append] at he; rw [← he] at hp'; exact absurd (List.isPrefixOf_iff_prefix.2 hp') hp
      | cons x a' =>
        rw [List.cons_append, List.cons.injEq] at he
        have := h3 a' h' he.2 hp'
        simpa using this

/-- C124. Every file can be described so, except for the two with lines to be skipped if such a line is a header. -/
theorem C124_described (special : Bool) (lines : List Str) (h : special = true → ∀ l ∈ lines, ∀ p, HeaderPart (stripNul l) p → greendBad p = false) :
    ∃ items, List.Forall₂ (GItem.Describes special) lines items := by
  induction lines with
  | nil => exact ⟨[], .nil⟩
  | cons l lines ih =>
    obtain ⟨items, hi⟩ := ih (fun hs x hx => h hs x (List.mem_cons_of_mem _ hx))
    suffices ∃ x, GItem.Describes special l x by
      obtain ⟨x, hx⟩ := this
      exact ⟨x :: items, .cons hx hi⟩
    by_cases hin : isIn "time".toList (stripNul l) = true
    · obtain ⟨a, h1, h2, h3⟩ := fromFind_first hin (by decide)
      have hp : HeaderPart (stripNul l) (fromFind "time".toList (stripNul l)) := ⟨a, h1, h2, h3⟩
      refine ⟨.header _, hp, ?_⟩
      rintro ⟨hs, hb⟩
      rw [h hs l List.mem_cons_self _ hp] at hb
      cases hb
    · have hno : NoHeader (stripNul l) := fun a t he hp => hin ((isIn_iff _ _).2 ⟨a, t, he, hp⟩)
      by_cases hb : special = true ∧ greendBad (stripNul l) = true
      · exact ⟨.skipped, hno, hb⟩
      · exact ⟨.data _, rfl, hno, hb⟩

/-! ### Examples -/

/-- A reader for examples: the columns are the lines of the block; one row, whose time and values are the number of lines. -/
def greendReader (_ : Bool) (block : List Str) : Except Err GreendFrame :=
  .ok ⟨block, [((block.length : Int), fun _ => some (block.length : Rat))]⟩

/-- Rows by time. -/
def greendSort (l : List (Int × (Str → Option Rat))) : List (Int × (Str → Option Rat)) := l.insertionSort (fun a b => a.1 ≤ b.1)

theorem greendSort_sorts : SortsByTime greendSort := by
  haveI : Std.Total (fun a b : Int × (Str → Option Rat) => a.1 ≤ b.1) := ⟨fun a b => le_total a.1 b.1⟩
  haveI : IsTrans (Int × (Str → Option Rat)) (fun a b => a.1 ≤ b.1) := ⟨fun _ _ _ h1 h2 => le_trans h1 h2⟩
  exact ⟨fun l => List.perm_insertionSort _ _, fun l => List.pairwise_insertionSort _ _, fun l h => List.Pairwise.insertionSort_eq h⟩

/-- Two blocks: the header is repeated in the first, and the second header comes after a line that was cut. -/
example : (match greendFile greendReader greendSort "building0/dataset_2014-01-01.csv".toList
    ["timestamp,A\n".toList, "1,5\n".toList, "timestamp,A\n".toList, "2,6\n".toList, "3,NUtimestamp,B\n".toList, "4,7\n".toList] with
    | .ok fs => fs.map GreendFrame.cols
    | .error _ => []) =
    [["timestamp,A\n".toList, "1,5\n".toList, "2,6\n".toList], ["timestamp,B\n".toList, "4,7\n".toList]] := by decide +kernel

/-- Data before any header. -/
example : (match greendFile greendReader greendSort "building0/dataset_2014-01-01.csv".toList ["1,5\n".toList, "timestamp,A\n".toList] with
    | .ok _ => none
    | .error e => some e) = some Err.attributeError := by decide +kernel

/-- A line is skipped in one of the two files, and not in others. -/
example : (match greendFile greendReader greendSort "building6/dataset_2014-09-02.csv".toList
    ["timestamp,A\n".toList, "1409660828.0753369,NULL,NUL".toList, "2,6\n".toList] with
    | .ok fs => fs.map GreendFrame.cols
    | .error _ => []) = [["timestamp,A\n".toList, "2,6\n".toList]] ∧
    (match greendFile greendReader greendSort "building5/dataset_2014-09-02.csv".toList
    ["timestamp,A\n".toList, "1409660828.0753369,NULL,NUL".toList, "2,6\n".toList] with
    | .ok fs => fs.map GreendFrame.cols
    | .error _ => []) = [["timestamp,A\n".toList, "1409660828.0753369,NULL,NUL".toList, "2,6\n".toList]] := by decide +kernel

/-- A house with two files, listed in another order than that of their names. -/
def greendDir : List GreendEntry :=
  [("building0".toList, some [("dataset_2.csv".toList, ["time,B".toList]), ("dataset_1.csv".toList, ["time,A".toList, "5".toList]),
    ("readme".toList, [])]), ("notes".toList, none)]

/-- With several processes the first meter is the first column of the file with the first name. -/
example : ((convertGreend greendReader greendSort true "g".toList greendDir).1 (meterKey 1 1)).map RawTable.rows =
      some [(1, none), (2, some 2)] ∧
    (convertGreend greendReader greendSort true "g".toList greendDir).2 = none := by decide +kernel

/-- C124. Without several processes, meters have other numbers if the files are listed in another order. -/
theorem C124_processes_counterexample : ¬ ∀ (read : Bool → List Str → Except Err GreendFrame)
    (sort : List (Int × (Str → Option Rat)) → List (Int × (Str → Option Rat))) (root : Str) (dir : List GreendEntry), SortsByTime sort →
    convertGreend read sort true root dir = convertGreend read sort false root dir := by
  intro h
  have h1 := congrArg (fun x => (x.1 (meterKey 1 1)).map RawTable.rows) (h greendReader greendSort "g".toList greendDir greendSort_sorts)
  have h2 : ((convertGreend greendReader greendSort true "g".toList greendDir).1 (meterKey 1 1)).map RawTable.rows ≠
      ((convertGreend greendReader greendSort false "g".toList greendDir).1 (meterKey 1 1)).map RawTable.rows := by decide +kernel
  exact h2 h1

/-- C124. With a pandas that refuses `error_bad_lines` (2.0 and later), a house whose first file has a header gives a TypeError. -/
theorem C124_new_pandas (sort : List (Int × (Str → Option Rat)) → List (Int × (Str → Option Rat))) (filename : Str) (lines : List Str)
    (items : List GItem) (hitems : List.Forall₂ (GItem.Describes (greendSpecial filename)) lines items) (h : Str) (rest : List GItem)
    (hfirst : items = .header h :: rest) :
    greendFile (fun _ _ => .error .typeError) sort filename lines = .error .typeError := by
  rcases C124_blocks (fun _ _ => .error .typeError) sort filename lines items hitems with ⟨blocks, hb, he⟩ | ⟨⟨pre, d, post, h1, h2⟩, _⟩
  · rw [he]
    rw [hfirst] at hb
    cases hb with
    | block => rfl
  · rw [hfirst] at h1
    cases pre with
    | nil => cases h1
    | cons x pre =>
      rw [List.cons_append, List.cons.injEq] at h1
      have := h2 x List.mem_cons_self
      rw [← h1.1] at this
      cases this

end Nilmtk
