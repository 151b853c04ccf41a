import Verif.Model.GroupBy
import Verif.Props.Select
/-!
C91: grouping the meters by a key of the metadata of their appliances.
-/
namespace Nilmtk

/-! ### Specification -/

/-- The entry is `v` or a list with `v`. -/
def EntryHas (o : Option MVal) (v : MAtom) : Prop := o = some (.atom v) ∨ ∃ l, o = some (.list l) ∧ v ∈ l

/-- The appliance has the value `v` under the key `k`, in its own metadata or in those of its type. -/
def HasValue (env : ApplTypes) (k : String) (a : Appl) (v : MAtom) : Prop :=
  EntryHas (a.metadata.lookup k) v ∨ ∃ t i, a.type = some t ∧ env.types.lookup t = some i ∧ EntryHas (i.attrs.lookup k) v

/-- `a` is the dominant appliance of the meter. -/
def DominatedBy (m : SMeter) (a : Appl) : Prop := m.dominant = .ok (some a)

/-- The metadata of the appliance mark it as dominant, with something that counts as true. -/
def MarkedDominant (a : Appl) : Prop :=
  ∃ v, a.metadata.lookup "dominant_appliance" = some v ∧ v ≠ .atom (.str "") ∧ v ≠ .atom (.num 0) ∧ v ≠ .list []

/-! ### Lemmas -/

theorem markedDominant_iff (a : Appl) : a.markedDominant = true ↔ MarkedDominant a := by
  unfold Appl.markedDominant MarkedDominant
  cases a.metadata.lookup "dominant_appliance" with
  | none => simp
  | some v =>
    match v with
    | .atom (.str s) => simp [MVal.truthy]
    | .atom (.num i) => simp [MVal.truthy]
    | .list l => simp [MVal.truthy]

theorem sameAppl_refl (a : Option Appl) : sameAppl a a = true := by cases a <;> simp [sameAppl]

theorem addDominant_mem {acc : List (Option Appl)} {a x : Option Appl} (h : x ∈ addDominant acc a) : x ∈ acc ∨ x = a := by
  unfold addDominant at h
  split at h
  · exact Or.inl h
  · simpa using h

theorem addDominant_has (acc : List (Option Appl)) (a : Option Appl) :
    (∀ x ∈ acc, x ∈ addDominant acc a) ∧ ∃ b ∈ addDominant acc a, sameAppl b a = true := by
  unfold addDominant
  split
  · rename_i h
    refine ⟨fun x hx => hx, ?_⟩
    simpa using h
  · exact ⟨fun x hx => List.mem_append_left _ hx, a, by simp, sameAppl_refl a⟩

theorem dominants_ok {ms : List SMeter} {acc ds : List (Option Appl)} (h : SMeter.dominants acc ms = .ok ds) :
    (∀ x ∈ acc, x ∈ ds) ∧ (∀ x ∈ ds, x ∈ acc ∨ ∃ m ∈ ms, m.dominant = .ok x) ∧
    (∀ m ∈ ms, ∃ a, m.dominant = .ok a ∧ ∃ b ∈ ds, sameAppl b a = true) := by
  induction ms generalizing acc with
  | nil =>
    rw [SMeter.dominants] at h
    cases h
    exact ⟨fun x hx => hx, fun x hx => Or.inl hx, by simp⟩
  | cons m ms ih =>
    rw [SMeter.dominants] at h
    cases hm : m.dominant with
    | error e => rw [hm] at h; cases h
    | ok a =>
      rw [hm] at h
      simp only at h
      obtain ⟨h1, h2, h3⟩ := ih h
      obtain ⟨g1, b, hb, hba⟩ := addDominant_has acc a
      refine ⟨fun x hx => h1 x (g1 x hx), ?_, ?_⟩
      · intro x hx
        rcases h2 x hx with h2 | ⟨m', hm', h2⟩
        · rcases addDominant_mem h2 with h2 | rfl
          · exact Or.inl h2
          · exact Or.inr ⟨m, List.mem_cons_self, hm⟩
        · exact Or.inr ⟨m', List.mem_cons_of_mem _ hm', h2⟩
      · intro m' hm'
        rcases List.mem_cons.1 hm' with rfl | hm'
        · exact ⟨a, hm, b, h1 b hb, hba⟩
        · exact h3 m' hm'

theorem dominants_total {ms : List SMeter} (h : ∀ m ∈ ms, ∃ a, m.dominant = .ok a) (acc : List (Option Appl)) :
    ∃ ds, SMeter.dominants acc ms = .ok ds := by
  induction ms generalizing acc with
  | nil => exact ⟨acc, by rw [SMeter.dominants]⟩
  | cons m ms ih =>
    obtain ⟨a, ha⟩ := h m List.mem_cons_self
    rw [SMeter.dominants, ha]
    exact ih (fun x hx => h x (List.mem_cons_of_mem _ hx)) _

theorem extendValues_mem (vs : List GVal) (o : Option MVal) (x : GVal) :
    x ∈ extendValues vs o ↔ x ∈ vs ∨ ∃ v, x = .atom v ∧ EntryHas o v := by
  unfold EntryHas
  match o with
  | none => simp [extendValues]
  | some (.atom a) => simp [extendValues]; try aesop
  | some (.list l) => simp [extendValues]; aesop

theorem extendFromType_mem (vs : List GVal) (i : ApplType) (k : String) (v : MAtom) (hd : GVal.dict ∉ extendFromType vs i k) :
    GVal.atom v ∈ extendFromType vs i k ↔ .atom v ∈ vs ∨ EntryHas (i.attrs.lookup k) v := by
  unfold extendFromType at hd ⊢
  split at hd
  · exact absurd (by simp) hd
  · rename_i h
    rw [if_neg h, extendValues_mem]
    simp

theorem extendFromType_sub (vs : List GVal) (i : ApplType) (k : String) (x : GVal) (h : x ∈ vs) : x ∈ extendFromType vs i k := by
  unfold extendFromType
  split
  · exact List.mem_append_left _ h
  · exact (extendValues_mem _ _ _).2 (Or.inl h)

theorem valuesLoop_ok {env : ApplTypes} {k : String} {ds : List (Option Appl)} {acc vs : List GVal}
    (h : valuesLoop env k ds acc = .ok vs) :
    (∀ d ∈ ds, ∃ a i, d = some a ∧ a.typeInfo env = .ok i) ∧ (∀ x ∈ acc, x ∈ vs) ∧
    (GVal.dict ∉ vs → ∀ v, GVal.atom v ∈ vs ↔ .atom v ∈ acc ∨ ∃ a, some a ∈ ds ∧ HasValue env k a v) := by
  induction ds generalizing acc with
  | nil => cases h; simp
  | cons d ds ih =>
    cases d with
    | none => cases h
    | some a =>
      rw [valuesLoop] at h
      cases hi : a.typeInfo env with
      | error e => rw [hi] at h; cases h
      | ok i =>
        rw [hi] at h
        simp only at h
        obtain ⟨h1, h2, h3⟩ := ih h
        refine ⟨?_, ?_, ?_⟩
        · intro d hd
          rcases List.mem_cons.1 hd with rfl | hd
          · exact ⟨a, i, rfl, hi⟩
          · exact h1 d hd
        · intro x hx
          exact h2 _ (extendFromType_sub _ _ _ _ ((extendValues_mem _ _ _).2 (Or.inl hx)))
        · intro hd v
          rw [h3 hd v, extendFromType_mem _ _ _ _ (fun hc => hd (h2 _ hc)), extendValues_mem]
          obtain ⟨t, ht, hl⟩ := typeInfo_ok.1 hi
          constructor
          · rintro (((h | ⟨w, hw, h⟩) | h) | ⟨b, hb, h⟩)
            · exact Or.inl h
            · cases hw; exact Or.inr ⟨a, List.mem_cons_self, Or.inl h⟩
            · exact Or.inr ⟨a, List.mem_cons_self, Or.inr ⟨t, i, ht, hl, h⟩⟩
            · exact Or.inr ⟨b, List.mem_cons_of_mem _ hb, h⟩
          · rintro (h | ⟨b, hb, h⟩)
            · exact Or.inl (Or.inl (Or.inl h))
            · rcases List.mem_cons.1 hb with hb | hb
              · cases hb
                rcases h with h | ⟨t', i', ht', hi', h⟩
                · exact Or.inl (Or.inl (Or.inr ⟨v, rfl, h⟩))
                · rw [ht] at ht'; cases ht'; rw [hl] at hi'; cases hi'
                  exact Or.inl (Or.inr h)
              · exact Or.inr ⟨b, hb, h⟩

theorem valuesLoop_total {env : ApplTypes} {k : String} {ds : List (Option Appl)}
    (h : ∀ d ∈ ds, ∃ a i, d = some a ∧ a.typeInfo env = .ok i) (acc : List GVal) : ∃ vs, valuesLoop env k ds acc = .ok vs := by
  induction ds generalizing acc with
  | nil => exact ⟨acc, rfl⟩
  | cons d ds ih =>
    obtain ⟨a, i, rfl, hi⟩ := h d List.mem_cons_self
    rw [valuesLoop, hi]
    exact ih (fun x hx => h x (List.mem_cons_of_mem _ hx)) _

theorem valuesLoop_noDict {env : ApplTypes} {k : String} (hk : k ≠ "categories") {ds : List (Option Appl)} {acc vs : List GVal}
    (ha : GVal.dict ∉ acc) (h : valuesLoop env k ds acc = .ok vs) : GVal.dict ∉ vs := by
  induction ds generalizing acc with
  | nil => cases h; exact ha
  | cons d ds ih =>
    cases d with
    | none => cases h
    | some a =>
      rw [valuesLoop] at h
      cases hi : a.typeInfo env with
      | error e => rw [hi] at h; cases h
      | ok i =>
        rw [hi] at h
        simp only at h
        refine ih ?_ h
        unfold extendFromType
        rw [if_neg (by simp [hk])]
        simp only [extendValues_mem]
        simp [ha]

theorem setOfValues_ok {vs : List GVal} {acc r : List MAtom} (h : setOfValues acc vs = .ok r) (hn : acc.Nodup) :
    r.Nodup ∧ GVal.dict ∉ vs ∧ ∀ v, v ∈ r ↔ v ∈ acc ∨ GVal.atom v ∈ vs := by
  induction vs generalizing acc with
  | nil => cases h; exact ⟨hn, by simp, by simp⟩
  | cons x vs ih =>
    cases x with
    | dict => cases h
    | atom a =>
      rw [setOfValues] at h
      have hn' : (if a ∈ acc then acc else acc ++ [a]).Nodup := by
        split
        · exact hn
        · rename_i ha
          rw [List.nodup_append]
          refine ⟨hn, by simp, ?_⟩
          intro x hx y hy e
          simp at hy
          subst hy; subst e; exact ha hx
      obtain ⟨h1, h2, h3⟩ := ih h hn'
      refine ⟨h1, by simp [h2], ?_⟩
      intro v
      rw [h3]
      split
      · rename_i ha
        simp only [List.mem_cons, GVal.atom.injEq]
        constructor
        · rintro (h | h)
          · exact Or.inl h
          · exact Or.inr (Or.inr h)
        · rintro (h | rfl | h)
          · exact Or.inl h
          · exact Or.inl ha
          · exact Or.inr h
      · simp only [List.mem_append, List.mem_cons, GVal.atom.injEq, List.not_mem_nil, or_false, or_assoc]

theorem setOfValues_total {vs : List GVal} (h : GVal.dict ∉ vs) (acc : List MAtom) : ∃ r, setOfValues acc vs = .ok r := by
  induction vs generalizing acc with
  | nil => exact ⟨acc, rfl⟩
  | cons x vs ih =>
    cases x with
    | dict => simp at h
    | atom a => rw [setOfValues]; exact ih (by simp at h; exact h) _

theorem groupLoop_ok {env : ApplTypes} {k : String} {ms : List SMeter} {vs : List MAtom} {gs : List (MAtom × List SMeter)}
    (h : groupLoop env k ms vs = .ok gs) :
    gs.map Prod.fst = vs ∧ ∀ g ∈ gs, selectUsingAppliances env [(k, .atom g.1)] ms = .ok g.2 := by
  induction vs generalizing gs with
  | nil => cases h; simp
  | cons v vs ih =>
    rw [groupLoop] at h
    cases hs : selectUsingAppliances env [(k, .atom v)] ms with
    | error e => rw [hs] at h; cases h
    | ok r =>
      rw [hs] at h
      simp only at h
      cases hg : groupLoop env k ms vs with
      | error e => rw [hg] at h; cases h
      | ok gs' =>
        rw [hg] at h
        cases h
        obtain ⟨h1, h2⟩ := ih hg
        refine ⟨by simp [h1], ?_⟩
        intro g hgm
        rcases List.mem_cons.1 hgm with rfl | hgm
        · exact hs
        · exact h2 g hgm

theorem groupLoop_total {env : ApplTypes} {k : String} {ms : List SMeter} {vs : List MAtom}
    (h : ∀ v ∈ vs, ∃ r, selectUsingAppliances env [(k, .atom v)] ms = .ok r) : ∃ gs, groupLoop env k ms vs = .ok gs := by
  induction vs with
  | nil => exact ⟨[], rfl⟩
  | cons v vs ih =>
    obtain ⟨r, hr⟩ := h v List.mem_cons_self
    obtain ⟨gs, hg⟩ := ih (fun x hx => h x (List.mem_cons_of_mem _ hx))
    exact ⟨(v, r) :: gs, by rw [groupLoop, hr]; simp only; rw [hg]⟩

theorem keepMatching_inv {f : SMeter → Except Err Bool} {ms r : List SMeter} (h : keepMatching f ms = .ok r) :
    r = ms.filter (Selected f) := by
  induction ms generalizing r with
  | nil => cases h; rfl
  | cons m ms ih =>
    rw [keepMatching] at h
    split at h
    · rename_i hf
      rw [List.filter_cons, if_neg (by simp [Selected, hf])]
      exact ih h
    · cases h
    · rename_i b hf
      split at h
      · cases h
      · rename_i r' hr
        cases h
        rw [ih hr, List.filter_cons]
        cases b <;> simp [Selected, hf]

theorem selectAtom_inv {env : ApplTypes} {k : String} {v : MAtom} {ms r : List SMeter}
    (h : selectUsingAppliances env [(k, .atom v)] ms = .ok r) :
    r = ms.filter (Selected (SMeter.matchesAppliances env [(k, .atom v)])) ∧ r ≠ [] := by
  unfold selectUsingAppliances selectMeters selectGet at h
  simp only at h
  split at h
  · cases h
  · cases h
  · rename_i r' hne hk
    cases h
    exact ⟨keepMatching_inv hk, fun e => hne e⟩

theorem anyMatch_true {α : Type} {f : α → Except Err Bool} {xs : List α} (h : anyMatch f xs = .ok true) : ∃ x ∈ xs, f x = .ok true := by
  induction xs with
  | nil => cases h
  | cons x xs ih =>
    rw [anyMatch] at h
    split at h
    · cases h
    · rename_i hf; exact ⟨x, List.mem_cons_self, hf⟩
    · obtain ⟨y, hy, h⟩ := ih h; exact ⟨y, List.mem_cons_of_mem _ hy, h⟩

theorem anyMatch_hit {α : Type} {f : α → Except Err Bool} {xs : List α} (h : ∀ x ∈ xs, ∃ b, f x = .ok b)
    (hx : ∃ x ∈ xs, f x = .ok true) : anyMatch f xs = .ok true := by
  induction xs with
  | nil => obtain ⟨x, hx, _⟩ := hx; cases hx
  | cons y ys ih =>
    obtain ⟨b, hb⟩ := h y List.mem_cons_self
    rw [anyMatch, hb]
    cases b with
    | true => rfl
    | false =>
      simp only
      refine ih (fun z hz => h z (List.mem_cons_of_mem _ hz)) ?_
      obtain ⟨x, hx, hf⟩ := hx
      rcases List.mem_cons.1 hx with rfl | hx
      · rw [hb] at hf; cases hf
      · exact ⟨x, hx, hf⟩

theorem matches_one {env : ApplTypes} {a : Appl} {k : String} {v : MVal} :
    a.matches env [(k, v)] = a.matchTerm env k v := by
  unfold Appl.matches
  rw [matchAll, matchAll]
  cases a.matchTerm env k v <;> simp

/-! ### Theorems -/

/-- C91. The dominant appliance of a meter is the first that is marked as dominant, and the first of all if none is; a meter
without appliances has none. -/
theorem C91_dominant (e : SElec) (o : Option Appl) : (SMeter.elec e).dominant = .ok o ↔
    (o = none ∧ e.appliances = []) ∨
    (∃ pre a post, e.appliances = pre ++ a :: post ∧ o = some a ∧ MarkedDominant a ∧
      ∀ b ∈ pre, ¬ MarkedDominant b) ∨
    (∃ a post, e.appliances = a :: post ∧ o = some a ∧ ∀ b ∈ e.appliances, ¬ MarkedDominant b) := by
  simp only [← markedDominant_iff, Bool.not_eq_true]
  rw [SMeter.dominant]
  simp only [Except.ok.injEq]
  have key : ∀ l : List Appl, dominantOf l = (match l.find? Appl.markedDominant with | some d => some d | none => l.head?) := by
    intro l
    match l with
    | [] => rfl
    | [a] =>
      simp only [dominantOf, List.find?, List.head?]
      cases a.markedDominant <;> rfl
    | a :: b :: as =>
      simp only [dominantOf, List.head?]
      rfl
  rw [key]
  cases hf : e.appliances.find? Appl.markedDominant with
  | some d =>
    obtain ⟨hd, pre, post, hl, hp⟩ := List.find?_eq_some_iff_append.1 hf
    simp only
    constructor
    · rintro rfl
      exact Or.inr (Or.inl ⟨pre, d, post, hl, rfl, hd, fun b hb => by simpa using hp b hb⟩)
    · rintro (⟨_, h⟩ | ⟨pre', a, post', hl', rfl, ha, hp'⟩ | ⟨a, post', hl', _, hall⟩)
      · rw [h] at hl; simp at hl
      · have : e.appliances.find? Appl.markedDominant = some a :=
          List.find?_eq_some_iff_append.2 ⟨ha, pre', post', hl', fun b hb => by simpa using hp' b hb⟩
        rw [hf] at this; exact this
      · rw [hall d (by rw [hl]; simp)] at hd; cases hd
  | none =>
    rw [List.find?_eq_none] at hf
    simp only
    constructor
    · intro h
      cases hl : e.appliances with
      | nil => rw [hl] at h; exact Or.inl ⟨h.symm, rfl⟩
      | cons a post =>
        rw [hl] at h
        refine Or.inr (Or.inr ⟨a, post, rfl, h.symm, ?_⟩)
        intro b hb
        simpa using hf b (by rw [hl]; exact hb)
    · rintro (⟨rfl, h⟩ | ⟨pre', a, post', hl', rfl, ha, hp'⟩ | ⟨a, post', hl', rfl, hall⟩)
      · rw [h]; rfl
      · exact absurd ha (hf a (by rw [hl']; simp))
      · rw [hl']; rfl

theorem dominants_head {d : Option Appl} {acc : List (Option Appl)} {ms : List SMeter} {ds : List (Option Appl)}
    (h : SMeter.dominants (d :: acc) ms = .ok ds) : ∃ rest, ds = d :: rest := by
  induction ms generalizing acc with
  | nil => rw [SMeter.dominants] at h; cases h; exact ⟨acc, rfl⟩
  | cons m ms ih =>
    rw [SMeter.dominants] at h
    cases hm : m.dominant with
    | error e => rw [hm] at h; cases h
    | ok a =>
      rw [hm] at h
      simp only [addDominant] at h
      split at h
      · exact ih h
      · exact ih h

theorem dominants_same {a : Appl} {ms : List SMeter} (h : ∀ x ∈ ms, ∃ b, DominatedBy x b ∧ SameId a b) :
    SMeter.dominants [some a] ms = .ok [some a] := by
  induction ms with
  | nil => rw [SMeter.dominants]
  | cons m ms ih =>
    obtain ⟨b, hb, hs⟩ := h m List.mem_cons_self
    unfold DominatedBy at hb
    rw [SMeter.dominants, hb]
    have : addDominant [some a] (some b) = [some a] := by
      unfold addDominant
      rw [if_pos]
      unfold SameId at hs; simpa [sameAppl] using hs
    simp only
    rw [this]
    exact ih (fun x hx => h x (List.mem_cons_of_mem _ hx))

/-- C91. A nested group has a dominant appliance just in case its members all have the same one, that is, of the same type and
number; it is that of the first member. -/
theorem C91_dominant_group (ms : List SMeter) (a : Appl) : DominatedBy (.group ms) a ↔
    ∃ m rest, ms = m :: rest ∧ DominatedBy m a ∧ ∀ x ∈ rest, ∃ b, DominatedBy x b ∧ SameId a b := by
  constructor
  · intro h
    unfold DominatedBy at h
    rw [SMeter.dominant] at h
    cases ms with
    | nil => rw [SMeter.dominants] at h; cases h
    | cons m rest =>
      cases hd : SMeter.dominants [] (m :: rest) with
      | error e => rw [hd] at h; cases h
      | ok ds =>
        rw [hd] at h
        simp only at h
        obtain ⟨h1, h2, h3⟩ := dominants_ok hd
        rw [SMeter.dominants] at hd
        cases hm : m.dominant with
        | error e => rw [hm] at hd; cases hd
        | ok d =>
          rw [hm] at hd
          obtain ⟨tl, rfl⟩ := dominants_head (d := d) (acc := []) hd
          cases tl with
          | cons x xs => cases h
          | nil =>
            cases h
            refine ⟨m, rest, rfl, hm, ?_⟩
            intro x hx
            obtain ⟨c, hc, b, hb, hs⟩ := h3 x (List.mem_cons_of_mem _ hx)
            simp at hb
            subst hb
            cases c with
            | none => simp [sameAppl] at hs
            | some c => exact ⟨c, hc, by simpa [sameAppl, SameId] using hs⟩
  · rintro ⟨m, rest, rfl, hm, h⟩
    unfold DominatedBy at *
    rw [SMeter.dominant, SMeter.dominants, hm]
    simp only [addDominant, List.any_nil, Bool.false_eq_true, if_false, List.nil_append]
    rw [dominants_same h]
    rfl

/-- C91. There is one group for every value of the key among the dominant appliances, and no two groups have the same name. It
is assumed that appliances of the same type and number, such as the first fridges of two buildings, have the same entries. -/
theorem C91_names_partial (env : ApplTypes) (k : String) (ms : List SMeter) (gs : List (MAtom × List SMeter))
    (hid : ∀ m ∈ ms, ∀ m' ∈ ms, ∀ a a', DominatedBy m a → DominatedBy m' a' → SameId a a' →
      a.metadata.lookup k = a'.metadata.lookup k)
    (h : groupBy env k ms = .ok gs) :
    (gs.map Prod.fst).Nodup ∧ ∀ v, v ∈ gs.map Prod.fst ↔ ∃ m ∈ ms, ∃ a, DominatedBy m a ∧ HasValue env k a v := by
  unfold groupBy valuesForKey at h
  cases hd : SMeter.dominants [] ms with
  | error e => rw [hd] at h; cases h
  | ok ds =>
    rw [hd] at h
    simp only at h
    cases hv : valuesLoop env k ds [] with
    | error e => rw [hv] at h; cases h
    | ok gv =>
      rw [hv] at h
      simp only at h
      cases hs : setOfValues [] gv with
      | error e => rw [hs] at h; cases h
      | ok vs =>
        rw [hs] at h
        simp only at h
        obtain ⟨g1, _⟩ := groupLoop_ok h
        obtain ⟨s1, s2, s3⟩ := setOfValues_ok hs List.nodup_nil
        obtain ⟨v1, _, v3⟩ := valuesLoop_ok hv
        obtain ⟨_, d2, d3⟩ := dominants_ok hd
        rw [g1]
        refine ⟨s1, ?_⟩
        intro v
        rw [s3, v3 s2]
        simp only [List.not_mem_nil, false_or]
        constructor
        · rintro ⟨a, ha, hv⟩
          rcases d2 _ ha with h | ⟨m, hm, h⟩
          · cases h
          · exact ⟨m, hm, a, h, hv⟩
        · rintro ⟨m, hm, a, ha, hv⟩
          obtain ⟨d, hd, b, hb, hsame⟩ := d3 m hm
          unfold DominatedBy at ha
          rw [ha] at hd; cases hd
          cases b with
          | none => simp [sameAppl] at hsame
          | some b =>
            refine ⟨b, hb, ?_⟩
            have hsid : SameId b a := by simpa [sameAppl, SameId] using hsame
            rcases d2 _ hb with h | ⟨m', hm', h⟩
            · cases h
            · have hb' : DominatedBy m' b := h
              have e := hid m' hm' m hm b a hb' ha hsid
              rcases hv with hv | ⟨t, i, ht, hi, hv⟩
              · exact Or.inl (e ▸ hv)
              · exact Or.inr ⟨t, i, hsid.1.trans ht, hi, hv⟩

/-- C91. Without that assumption every name of a group is still the value of a dominant appliance. -/
theorem C91_names_sound (env : ApplTypes) (k : String) (ms : List SMeter) (gs : List (MAtom × List SMeter))
    (h : groupBy env k ms = .ok gs) :
    (gs.map Prod.fst).Nodup ∧ ∀ v ∈ gs.map Prod.fst, ∃ m ∈ ms, ∃ a, DominatedBy m a ∧ HasValue env k a v := by
  unfold groupBy valuesForKey at h
  cases hd : SMeter.dominants [] ms with
  | error e => rw [hd] at h; cases h
  | ok ds =>
    rw [hd] at h
    simp only at h
    cases hv : valuesLoop env k ds [] with
    | error e => rw [hv] at h; cases h
    | ok gv =>
      rw [hv] at h
      simp only at h
      cases hs : setOfValues [] gv with
      | error e => rw [hs] at h; cases h
      | ok vs =>
        rw [hs] at h
        simp only at h
        obtain ⟨g1, _⟩ := groupLoop_ok h
        obtain ⟨s1, s2, s3⟩ := setOfValues_ok hs List.nodup_nil
        obtain ⟨v1, _, v3⟩ := valuesLoop_ok hv
        obtain ⟨_, d2, d3⟩ := dominants_ok hd
        rw [g1]
        refine ⟨s1, ?_⟩
        intro v
        rw [s3, v3 s2]
        simp only [List.not_mem_nil, false_or]
        rintro ⟨a, ha, hv⟩
        rcases d2 _ ha with h | ⟨m, hm, h⟩
        · cases h
        · exact ⟨m, hm, a, h, hv⟩

/-- C91. A group is not empty, keeps the order of the meters, and each of its meters has an appliance, dominant or not, of
which the term is true. -/
theorem C91_members (env : ApplTypes) (k : String) (ms : List SMeter) (gs : List (MAtom × List SMeter))
    (h : groupBy env k ms = .ok gs) (v : MAtom) (r : List SMeter) (hg : (v, r) ∈ gs) :
    r ≠ [] ∧ r.Sublist ms ∧ ∀ m ∈ r, ∃ a ∈ m.appliances, TermTrue env a k (.atom v) := by
  unfold groupBy at h
  split at h
  · cases h
  · obtain ⟨_, g2⟩ := groupLoop_ok h
    obtain ⟨e, hne⟩ := selectAtom_inv (g2 _ hg)
    simp only at e hne
    refine ⟨hne, by rw [e]; exact List.filter_sublist, ?_⟩
    intro m hm
    rw [e, List.mem_filter] at hm
    have hsel := hm.2
    unfold Selected at hsel
    split at hsel
    · rename_i hmt
      obtain ⟨a, ha, hma⟩ := anyMatch_true hmt
      exact ⟨a, ha, (C67_appliance env a _ _ hma).1 rfl (k, .atom v) (by simp)⟩
    · cases hsel

/-- C91. A meter is in the group of every value its appliances have, as far as its appliances can all be asked. -/
theorem C91_included_partial (env : ApplTypes) (k : String) (ms : List SMeter) (gs : List (MAtom × List SMeter))
    (h : groupBy env k ms = .ok gs) (v : MAtom) (r : List SMeter) (hg : (v, r) ∈ gs) (m : SMeter) (hm : m ∈ ms)
    (hall : ∀ a ∈ m.appliances, ∃ b, a.matches env [(k, .atom v)] = .ok b)
    (ha : ∃ a ∈ m.appliances, TermTrue env a k (.atom v)) : m ∈ r := by
  unfold groupBy at h
  split at h
  · cases h
  · obtain ⟨_, g2⟩ := groupLoop_ok h
    obtain ⟨e, _⟩ := selectAtom_inv (g2 _ hg)
    simp only at e
    rw [e, List.mem_filter]
    refine ⟨hm, ?_⟩
    have : SMeter.matchesAppliances env [(k, .atom v)] m = .ok true := by
      refine anyMatch_hit hall ?_
      obtain ⟨a, ha, ht⟩ := ha
      obtain ⟨b, hb⟩ := hall a ha
      have := (C67_appliance env a _ _ hb).2 (by simpa using ht)
      subst this
      exact ⟨a, ha, hb⟩
    simp [Selected, this]

/-- One appliance per meter, with the value given by `val`. -/
theorem groupBy_partition (env : ApplTypes) (k : String) (ms : List SMeter) (val : SMeter → MAtom) (hk : k ≠ "categories")
    (h : ∀ m ∈ ms, ∃ e a t i, m = .elec e ∧ e.appliances = [a] ∧ a.metadata.lookup k = some (.atom (val m)) ∧
      a.type = some t ∧ env.types.lookup t = some i ∧ i.attrs.lookup k = none ∧
      ∀ m' ∈ ms, a.matchTerm env k (.atom (val m')) = .ok (decide (val m' = val m)))
    (hid : ∀ m ∈ ms, ∀ m' ∈ ms, ∀ a a', DominatedBy m a → DominatedBy m' a' → SameId a a' →
      a.metadata.lookup k = a'.metadata.lookup k) :
    ∃ gs, groupBy env k ms = .ok gs ∧ (gs.map Prod.fst).Nodup ∧ (∀ m ∈ ms, val m ∈ gs.map Prod.fst) ∧
      ∀ g ∈ gs, g.2 ≠ [] ∧ g.2 = ms.filter (fun m => decide (val m = g.1)) := by
  have hdom : ∀ m ∈ ms, ∃ a t i, DominatedBy m a ∧ a.metadata.lookup k = some (.atom (val m)) ∧
      a.type = some t ∧ env.types.lookup t = some i ∧ i.attrs.lookup k = none := by
    intro m hm
    obtain ⟨e, a, t, i, rfl, h1, h2, h3, h4, h5, _⟩ := h m hm
    exact ⟨a, t, i, by unfold DominatedBy; rw [SMeter.dominant, h1]; rfl, h2, h3, h4, h5⟩
  obtain ⟨ds, hds⟩ := dominants_total (ms := ms)
    (fun m hm => by obtain ⟨a, _, _, h, _⟩ := hdom m hm; exact ⟨some a, h⟩) []
  obtain ⟨_, d2, _⟩ := dominants_ok hds
  obtain ⟨gv, hgv⟩ := valuesLoop_total (env := env) (k := k) (ds := ds) (by
    intro d hd
    rcases d2 d hd with h | ⟨m, hm, h⟩
    · cases h
    · obtain ⟨a, t, i, h1, _, h3, h4, _⟩ := hdom m hm
      unfold DominatedBy at h1
      rw [h] at h1; cases h1
      exact ⟨a, i, rfl, typeInfo_ok.2 ⟨t, h3, h4⟩⟩) []
  obtain ⟨vs, hvs⟩ := setOfValues_total (valuesLoop_noDict hk (by simp) hgv) []
  have hval : valuesForKey env k ms = .ok vs := by
    unfold valuesForKey; rw [hds]; simp only; rw [hgv]; exact hvs
  have hmem : ∀ v ∈ vs, ∃ m ∈ ms, val m = v := by
    intro v hv
    obtain ⟨_, s2, s3⟩ := setOfValues_ok hvs List.nodup_nil
    obtain ⟨_, _, v3⟩ := valuesLoop_ok hgv
    rw [s3, v3 s2] at hv
    simp only [List.not_mem_nil, false_or] at hv
    obtain ⟨a, ha, hv⟩ := hv
    rcases d2 _ ha with h | ⟨m, hm, h⟩
    · cases h
    · obtain ⟨a', t, i, h1, h2, h3, h4, h5⟩ := hdom m hm
      unfold DominatedBy at h1
      rw [h] at h1; cases h1
      refine ⟨m, hm, ?_⟩
      rcases hv with (hv | ⟨l, hv, _⟩) | ⟨t', i', ht', hi', hv⟩
      · rw [h2] at hv; cases hv; rfl
      · rw [h2] at hv; cases hv
      · rw [h3] at ht'; cases ht'; rw [h4] at hi'; cases hi'
        rcases hv with hv | ⟨l, hv, _⟩ <;> (rw [h5] at hv; cases hv)
  have hmatch : ∀ m ∈ ms, ∀ m' ∈ ms, SMeter.matchesAppliances env [(k, .atom (val m'))] m = .ok (decide (val m' = val m)) := by
    intro m hm m' hm'
    obtain ⟨e, a, t, i, rfl, h1, h2, h3, h4, h5, h6⟩ := h m hm
    unfold SMeter.matchesAppliances
    rw [SMeter.appliances, h1, anyMatch, anyMatch, matches_one, h6 m' hm']
    cases decide (val m' = val (SMeter.elec e)) <;> rfl
  have hfil : ∀ m' ∈ ms, ms.filter (Selected (SMeter.matchesAppliances env [(k, .atom (val m'))])) =
      ms.filter (fun m => decide (val m = val m')) := by
    intro m' hm'
    apply List.filter_congr
    intro m hm
    unfold Selected
    rw [hmatch m hm m' hm']
    by_cases e : val m' = val m
    · simp [e]
    · have : ¬ val m = val m' := fun h => e h.symm
      simp [e, this]
  obtain ⟨gs, hgs⟩ := groupLoop_total (env := env) (k := k) (ms := ms) (vs := vs) (by
    intro v hv
    obtain ⟨m', hm', rfl⟩ := hmem v hv
    have hkey : ∀ x ∈ ms, ∀ e, SMeter.matchesAppliances env [(k, .atom (val m'))] x = .error e → e = .keyError := by
      intro x hx e he
      rw [hmatch x hx m' hm'] at he; cases he
    have : selectUsingAppliances env [(k, .atom (val m'))] ms =
        selectGet (SMeter.matchesAppliances env [(k, .atom (val m'))]) ms := rfl
    rw [this, selectGet_ok _ _ hkey, if_neg]
    · exact ⟨_, rfl⟩
    · rw [hfil m' hm']
      intro h0
      have : m' ∈ ms.filter (fun m => decide (val m = val m')) := by simp [hm']
      rw [h0] at this; cases this)
  have hok : groupBy env k ms = .ok gs := by unfold groupBy; rw [hval]; exact hgs
  obtain ⟨n1, n2⟩ := C91_names_partial env k ms gs hid hok
  refine ⟨gs, hok, n1, ?_, ?_⟩
  · intro m hm
    obtain ⟨a, t, i, h1, h2, _⟩ := hdom m hm
    exact (n2 _).2 ⟨m, hm, a, h1, Or.inl (Or.inl h2)⟩
  · intro g hg
    obtain ⟨g1, g2⟩ := groupLoop_ok hgs
    obtain ⟨e, hne⟩ := selectAtom_inv (g2 g hg)
    obtain ⟨m', hm', hv⟩ := hmem g.1 (by rw [← g1]; exact List.mem_map_of_mem hg)
    refine ⟨hne, ?_⟩
    rw [e, ← hv, hfil m' hm']

/-- C91. When every meter has one appliance, with a single value for the key in its own metadata and none in those of its type,
the groups divide the meters by that value: a meter is in the group of its value and in no other. -/
theorem C91_partition_partial (env : ApplTypes) (k : String) (ms : List SMeter) (val : SMeter → MAtom)
    (hk : k ∉ ["type", "instance", "count", "index", "categories"])
    (h : ∀ m ∈ ms, ∃ e a t i, m = .elec e ∧ e.appliances = [a] ∧ a.metadata.lookup k = some (.atom (val m)) ∧
      a.type = some t ∧ env.types.lookup t = some i ∧ i.attrs.lookup k = none)
    (hid : ∀ m ∈ ms, ∀ m' ∈ ms, ∀ a a', DominatedBy m a → DominatedBy m' a' → SameId a a' →
      a.metadata.lookup k = a'.metadata.lookup k) :
    ∃ gs, groupBy env k ms = .ok gs ∧ (gs.map Prod.fst).Nodup ∧ (∀ m ∈ ms, val m ∈ gs.map Prod.fst) ∧
      ∀ g ∈ gs, g.2 ≠ [] ∧ g.2 = ms.filter (fun m => decide (val m = g.1)) := by
  simp only [List.mem_cons, List.not_mem_nil, or_false, not_or] at hk
  refine groupBy_partition env k ms val hk.2.2.2.2 ?_ hid
  intro m hm
  obtain ⟨e, a, t, i, h1, h2, h3, h4, h5, h6⟩ := h m hm
  refine ⟨e, a, t, i, h1, h2, h3, h4, h5, h6, ?_⟩
  intro m' hm'
  unfold Appl.matchTerm
  rw [if_neg hk.1, if_neg hk.2.1, if_neg (by simp [hk.2.2.1, hk.2.2.2.1]), h3]
  simp only [MVal.atom.injEq, Except.ok.injEq, decide_eq_decide]
  exact ⟨fun h => h.symm, fun h => h.symm⟩

/-- C91. Likewise for the type of the appliance, when no type of an appliance of the group is a synonym of another. -/
theorem C91_types_partial (env : ApplTypes) (ms : List SMeter) (ty : SMeter → String)
    (h : ∀ m ∈ ms, ∃ e a i, m = .elec e ∧ e.appliances = [a] ∧ a.type = some (ty m) ∧
      a.metadata.lookup "type" = some (.atom (.str (ty m))) ∧ env.types.lookup (ty m) = some i ∧
      i.attrs.lookup "type" = none ∧
      (i.attrs.lookup "synonyms" = none ∨ ∃ l, i.attrs.lookup "synonyms" = some (.list l) ∧
        ∀ m' ∈ ms, MAtom.str (ty m') ∈ l → ty m' = ty m)) :
    ∃ gs, groupBy env "type" ms = .ok gs ∧ (gs.map Prod.fst).Nodup ∧ (∀ m ∈ ms, .str (ty m) ∈ gs.map Prod.fst) ∧
      ∀ g ∈ gs, g.2 ≠ [] ∧ g.2 = ms.filter (fun m => decide (.str (ty m) = g.1)) := by
  refine groupBy_partition env "type" ms (fun m => .str (ty m)) (by decide) ?_ ?_
  · intro m hm
    obtain ⟨e, a, i, h1, h2, h3, h4, h5, h6, h7⟩ := h m hm
    refine ⟨e, a, ty m, i, h1, h2, h4, h3, h5, h6, ?_⟩
    intro m' hm'
    unfold Appl.matchTerm
    rw [if_pos rfl]
    by_cases hs : env.allowSynonyms = true
    · rw [if_pos hs]
      unfold matchType
      rw [typeInfo_ok.2 ⟨_, h3, h5⟩]
      simp only
      rcases h7 with h7 | ⟨l, h7, hl⟩
      · rw [h7, h3]
        simp [valIn]
      · rw [h7, h3]
        simp only [valIn, Option.toList, List.map_cons, List.map_nil, Except.ok.injEq, decide_eq_decide, List.mem_append,
          List.mem_cons, List.not_mem_nil, or_false, MAtom.str.injEq]
        constructor
        · rintro (h | h)
          · exact hl m' hm' h
          · exact h
        · exact Or.inr
    · rw [if_neg hs, h3]
      simp only [Option.map_some, Option.some.injEq, MVal.atom.injEq, MAtom.str.injEq, Except.ok.injEq, decide_eq_decide]
      exact ⟨fun h => h.symm, fun h => h.symm⟩
  · intro m hm m' hm' a a' ha ha' hs
    obtain ⟨e, b, i, rfl, h2, h3, h4, _⟩ := h m hm
    obtain ⟨e', b', i', rfl, h2', h3', h4', _⟩ := h m' hm'
    unfold DominatedBy at ha ha'
    rw [SMeter.dominant, h2] at ha
    rw [SMeter.dominant, h2'] at ha'
    cases ha; cases ha'
    have := hs.1
    rw [h3, h3'] at this
    rw [h4, h4']
    simp only [Option.some.injEq] at this
    rw [this]

/-- C91. Grouping raises when a meter has no appliance (as a meter of the mains), or has several dominant ones. -/
theorem C91_no_appliance (env : ApplTypes) (k : String) (ms : List SMeter) (m : SMeter) (hm : m ∈ ms)
    (h : ∀ a, ¬ DominatedBy m a) : ∃ e, groupBy env k ms = .error e := by
  cases hg : groupBy env k ms with
  | error e => exact ⟨e, rfl⟩
  | ok gs =>
    exfalso
    unfold groupBy valuesForKey at hg
    cases hd : SMeter.dominants [] ms with
    | error e => rw [hd] at hg; cases hg
    | ok ds =>
      rw [hd] at hg
      simp only at hg
      cases hv : valuesLoop env k ds [] with
      | error e => rw [hv] at hg; cases hg
      | ok gv =>
        obtain ⟨v1, _⟩ := valuesLoop_ok hv
        obtain ⟨_, _, d3⟩ := dominants_ok hd
        obtain ⟨a, ha, b, hb, hs⟩ := d3 m hm
        obtain ⟨b', i, rfl, _⟩ := v1 b hb
        cases a with
        | none => simp [sameAppl] at hs
        | some a => exact h a ha

/-! ### Examples and counterexamples -/

/-- The number of a meter, for the examples. -/
def gbInst : SMeter → MVal
  | .elec e => e.inst
  | .group _ => .list []

/-- The groups by name and numbers of meters, for the examples. -/
def gbShow (r : Except Err (List (MAtom × List SMeter))) : Except Err (List (MAtom × List MVal)) :=
  r.map (List.map (fun g => (g.1, g.2.map gbInst)))

/-- An appliance for the examples. -/
def gbAppl (t : String) (i : Int) (md : MDict) : Appl := ⟨some t, some i, ("type", .atom (.str t)) :: md⟩

/-- A meter for the examples. -/
def gbMeter (n : Int) (as : List Appl) : SMeter := .elec ⟨.atom (.num n), 1, "d", [], none, as⟩

/-- Types for the examples. -/
def gbTypes : ApplTypes :=
  ⟨[("fridge", ⟨[("synonyms", .list [.str "cooler"]), ("on_power_threshold", .atom (.num 50))], some [.atom (.str "cold")]⟩),
    ("freezer", ⟨[("control", .list [.str "manual"])], some [.atom (.str "cold")]⟩), ("cooler", ⟨[], none⟩)], true⟩

/-- Non-vacuity of C91: three meters in two rooms. -/
def gbMeters : List SMeter :=
  [gbMeter 1 [gbAppl "fridge" 1 [("room", .atom (.str "kitchen"))]], gbMeter 2 [gbAppl "freezer" 1 [("room", .atom (.str "cellar"))]],
    gbMeter 3 [gbAppl "fridge" 2 [("room", .atom (.str "kitchen"))]]]

example : gbShow (groupBy gbTypes "room" gbMeters) =
    .ok [(.str "kitchen", [.atom (.num 1), .atom (.num 3)]), (.str "cellar", [.atom (.num 2)])] := by decide +kernel

example : gbShow (groupBy gbTypes "type" gbMeters) =
    .ok [(.str "fridge", [.atom (.num 1), .atom (.num 3)]), (.str "freezer", [.atom (.num 2)])] := by decide +kernel

/-- Non-vacuity of `C91_dominant_group`. -/
example : DominatedBy (.group [gbMeter 1 [gbAppl "fridge" 1 []], gbMeter 2 [gbAppl "kettle" 1 [],
    gbAppl "fridge" 1 [("dominant_appliance", .atom (.num 1))]]]) (gbAppl "fridge" 1 []) := by
  unfold DominatedBy; decide +kernel

/-- C91. The example of the documentation, `groupby('category')`, gives no group although the appliances have a category, and
`groupby('categories')` raises. -/
theorem C91_category_counterexample :
    gbShow (groupBy gbTypes "category" (gbMeters)) = .ok [] ∧
    (gbShow (groupBy gbTypes "categories" (gbMeters))) = .error .typeError ∧
    (gbAppl "fridge" 1 []).matches gbTypes [("category", .atom (.str "cold"))] = .ok true := by
  refine ⟨?_, ?_, ?_⟩ <;> decide +kernel

/-- C91. The first fridges of two buildings count as one appliance: a meter is in no group. -/
theorem C91_identity_counterexample :
    gbShow (groupBy gbTypes "room" [gbMeter 1 [gbAppl "fridge" 1 [("room", .atom (.str "kitchen"))]],
      gbMeter 2 [gbAppl "fridge" 1 [("room", .atom (.str "cellar"))]]]) = .ok [(.str "kitchen", [.atom (.num 1)])] := by
  decide +kernel

/-- C91. If the metadata of an appliance overrides an entry of its type, or are a list, grouping by it raises. -/
theorem C91_override_counterexample :
    gbShow (groupBy gbTypes "on_power_threshold" [gbMeter 1 [gbAppl "fridge" 1 [("on_power_threshold", .atom (.num 20))]]]) =
      .error .keyError ∧
    gbShow (groupBy gbTypes "room" [gbMeter 1 [gbAppl "fridge" 1 [("room", .list [.str "kitchen", .str "cellar"])]]]) =
      .error .keyError := by
  refine ⟨?_, ?_⟩ <;> decide +kernel

/-- C91. Groups overlap through appliances that are not dominant (the first meter is in both groups) and through synonyms. -/
theorem C91_overlap_counterexample :
    gbShow (groupBy gbTypes "type" [gbMeter 1 [gbAppl "fridge" 1 [], gbAppl "freezer" 1 []], gbMeter 2 [gbAppl "freezer" 2 []]]) =
      .ok [(.str "fridge", [.atom (.num 1)]), (.str "freezer", [.atom (.num 1), .atom (.num 2)])] ∧
    gbShow (groupBy gbTypes "type" [gbMeter 1 [gbAppl "fridge" 1 []], gbMeter 2 [gbAppl "cooler" 1 []]]) =
      .ok [(.str "fridge", [.atom (.num 1)]), (.str "cooler", [.atom (.num 1), .atom (.num 2)])] := by
  refine ⟨?_, ?_⟩ <;> decide +kernel

/-- C91. A meter whose first appliance lacks the key is left out of the group of its dominant appliance. -/
theorem C91_lost_counterexample :
    gbShow (groupBy gbTypes "room" [gbMeter 1 [gbAppl "freezer" 1 [],
        gbAppl "fridge" 1 [("dominant_appliance", .atom (.num 1)), ("room", .atom (.str "kitchen"))]],
      gbMeter 2 [gbAppl "fridge" 2 [("room", .atom (.str "kitchen"))]]]) = .ok [(.str "kitchen", [.atom (.num 2)])] := by
  decide +kernel

/-- C91. A meter without appliances, such as a site meter, makes grouping raise. -/
theorem C91_mains_counterexample :
    gbShow (groupBy gbTypes "room" (gbMeter 9 [] :: gbMeters)) = .error .attributeError ∧
    gbShow (groupBy gbTypes "room" (.group [gbMeter 1 [gbAppl "fridge" 1 []], gbMeter 2 []] :: gbMeters)) =
      .error .runtimeError := by
  refine ⟨?_, ?_⟩ <;> decide +kernel

end Nilmtk
