import Batteries.Data.Char.AsciiCasing
import Mathlib.Data.List.Forall2
import Verif.Model.Labels
import Verif.Props.Redd
/-!
C107: what the labels of appliances, meters and groups say.
-/
namespace Nilmtk

/-! ### Specification -/

/-- The appliance that a pretty label names: the first one that is marked as dominant, and the first one if none is marked. -/
def LabMeter.Names (m : LabMeter) (a : LabAppl) : Prop :=
  ∃ pre post, m.appliances = pre ++ a :: post ∧ (∀ b ∈ pre, b.dominant = false) ∧
    (a.dominant = true ∨ (pre = [] ∧ ∀ b ∈ post, b.dominant = false))

/-- A meter without a name: the key is missing, null or the empty text. -/
def LabMeter.Unnamed (m : LabMeter) : Prop := m.name = none ∨ m.name = some none ∨ m.name = some (some [])

/-- Texts that are the same but for the case of letters. -/
def SameButCase (s t : Str) : Prop := s.map Char.toUpper = t.map Char.toUpper

/-- The parts of a text with commas. -/
inductive CommaParts : Str → List Str → Prop
  | nil : CommaParts [] []
  | one (p : Str) : CommaParts p [p]
  | cons (p : Str) {s : Str} {ps : List Str} : ps ≠ [] → CommaParts s ps → CommaParts (p ++ ',' :: ' ' :: s) (p :: ps)

/-! ### Texts -/

theorem sep_inj {s : Char} {a b x y : Str} (ha : s ∉ a) (hb : s ∉ b) (h : a ++ s :: x = b ++ s :: y) : a = b ∧ x = y := by
  induction a generalizing b with
  | nil =>
    cases b with
    | nil => exact ⟨rfl, (List.cons.inj h).2⟩
    | cons c cs =>
      have := (List.cons.inj h).1
      exact absurd (this ▸ List.mem_cons_self) hb
  | cons c cs ih =>
    cases b with
    | nil =>
      have := (List.cons.inj h).1
      exact absurd (this ▸ List.mem_cons_self) ha
    | cons d ds =>
      obtain ⟨h1, h2⟩ := List.cons.inj h
      obtain ⟨h3, h4⟩ := ih (fun hm => ha (List.mem_cons_of_mem _ hm)) (fun hm => hb (List.mem_cons_of_mem _ hm)) h2
      exact ⟨by rw [h1, h3], h4⟩

theorem toUpper_nonletter {c d : Char} (hd : d.isUpper = false) (h : c.toUpper = d) : c = d := by
  by_cases hc : c.isLower = true
  · have h1 := Char.isUpper_toUpper_eq_isAlpha c
    rw [h, hd] at h1
    have : c.isAlpha = true := by simp [Char.isAlpha, hc]
    rw [this] at h1
    cases h1
  · rwa [Char.toUpper_eq_of_not_isLower hc] at h

/-- How letters are written: as they are or in upper case. -/
def CaseFun (f : Char → Char) : Prop := f = id ∨ f = Char.toUpper

theorem CaseFun.fix {f : Char → Char} (hf : CaseFun f) {d : Char} (hd : d.isUpper = false) (hl : d.isLower = false) :
    f d = d ∧ ∀ c, f c = d → c = d := by
  rcases hf with rfl | rfl
  · exact ⟨rfl, fun c h => h⟩
  · exact ⟨Char.toUpper_eq_of_not_isLower (by simp [hl]), fun c h => toUpper_nonletter hd h⟩

theorem reprChar_cases (q c : Char) : reprChar q c = [c] ∧ c ≠ '\\' ∧ c ≠ q ∧ c ≠ '\n' ∧ c ≠ '\r' ∧ c ≠ '\t' ∨
    (∃ d, reprChar q c = ['\\', d] ∧ ((c = '\n' ∧ d = 'n') ∨ (c = '\r' ∧ d = 'r') ∨ (c = '\t' ∧ d = 't') ∨ ((c = '\\' ∨ c = q) ∧ d = c))) := by
  unfold reprChar
  split
  · rename_i h; exact .inr ⟨_, rfl, .inl ⟨h, rfl⟩⟩
  · split
    · rename_i h; exact .inr ⟨_, rfl, .inr (.inl ⟨h, rfl⟩)⟩
    · split
      · rename_i h; exact .inr ⟨_, rfl, .inr (.inr (.inl ⟨h, rfl⟩))⟩
      · split
        · rename_i h; exact .inr ⟨_, rfl, .inr (.inr (.inr ⟨h, rfl⟩))⟩
        · rename_i h1 h2 h3 h4
          rw [not_or] at h4
          exact .inl ⟨rfl, h4.1, h4.2, h1, h2, h3⟩

theorem reprChar_step {f : Char → Char} (hf : CaseFun f) {q : Char} (hq : q = '\'' ∨ q = '"') {c c' : Char} {x y : Str}
    (h : (reprChar q c).map f ++ x = (reprChar q c').map f ++ y) : f c = f c' ∧ x = y := by
  have hb := hf.fix (d := '\\') (by decide) (by decide)
  have hqf : f q = q ∧ ∀ c, f c = q → c = q := hf.fix (by rcases hq with rfl | rfl <;> decide) (by rcases hq with rfl | rfl <;> decide)
  have hn : f 'n' ≠ f 'r' ∧ f 'n' ≠ f 't' ∧ f 'r' ≠ f 't' ∧ f 'n' ≠ '\\' ∧ f 'r' ≠ '\\' ∧ f 't' ≠ '\\' ∧ f 'n' ≠ q ∧ f 'r' ≠ q ∧ f 't' ≠ q := by
    rcases hf with rfl | rfl <;> rcases hq with rfl | rfl <;> decide
  obtain ⟨n1, n2, n3, n4, n5, n6, n7, n8, n9⟩ := hn
  rcases reprChar_cases q c with ⟨h1, hc, -⟩ | ⟨d, h1, hd⟩ <;> rcases reprChar_cases q c' with ⟨h2, hc', -⟩ | ⟨d', h2, hd'⟩ <;>
    rw [h1, h2] at h <;> simp only [List.map_cons, List.map_nil, List.cons_append, List.nil_append, List.cons.injEq] at h
  · exact h
  · exact absurd (hb.2 c (by rw [h.1, hb.1])) hc
  · exact absurd (hb.2 c' (by rw [← h.1, hb.1])) hc'
  · obtain ⟨-, h3, h4⟩ := h
    refine ⟨?_, h4⟩
    rcases hd with ⟨rfl, rfl⟩ | ⟨rfl, rfl⟩ | ⟨rfl, rfl⟩ | ⟨hd, rfl⟩ <;> rcases hd' with ⟨rfl, rfl⟩ | ⟨rfl, rfl⟩ | ⟨rfl, rfl⟩ | ⟨hd', rfl⟩ <;>
      first
        | rfl
        | exact h3
        | (exfalso; first | exact n1 h3 | exact n2 h3 | exact n3 h3 | exact n1 h3.symm | exact n2 h3.symm | exact n3 h3.symm)
        | (exfalso; rcases hd' with rfl | rfl <;> first | (rw [hb.1] at h3; first | exact n4 h3 | exact n5 h3 | exact n6 h3) | (rw [hqf.1] at h3; first | exact n7 h3 | exact n8 h3 | exact n9 h3))
        | (exfalso; rcases hd with rfl | rfl <;> first | (rw [hb.1] at h3; first | exact n4 h3.symm | exact n5 h3.symm | exact n6 h3.symm) | (rw [hqf.1] at h3; first | exact n7 h3.symm | exact n8 h3.symm | exact n9 h3.symm))

theorem reprChar_head {f : Char → Char} (hf : CaseFun f) {q : Char} (hq : q = '\'' ∨ q = '"') (c : Char) (x y : Str) :
    (reprChar q c).map f ++ x ≠ q :: y := by
  intro h
  have hb := hf.fix (d := '\\') (by decide) (by decide)
  have hqf : f q = q ∧ ∀ c, f c = q → c = q := hf.fix (by rcases hq with rfl | rfl <;> decide) (by rcases hq with rfl | rfl <;> decide)
  rcases reprChar_cases q c with ⟨h1, -, hc, -⟩ | ⟨d, h1, -⟩ <;> rw [h1] at h <;>
    simp only [List.map_cons, List.map_nil, List.cons_append, List.nil_append, List.cons.injEq] at h
  · exact hc (hqf.2 c h.1)
  · rw [hb.1] at h
    rcases hq with rfl | rfl <;> exact absurd h.1 (by decide)

theorem reprBody_inj {f : Char → Char} (hf : CaseFun f) {q : Char} (hq : q = '\'' ∨ q = '"') {s t x y : Str}
    (h : (s.flatMap (reprChar q)).map f ++ q :: x = (t.flatMap (reprChar q)).map f ++ q :: y) : s.map f = t.map f ∧ x = y := by
  induction s generalizing t with
  | nil =>
    cases t with
    | nil => exact ⟨rfl, (List.cons.inj h).2⟩
    | cons c cs =>
      rw [List.flatMap_cons, List.map_append, List.append_assoc] at h
      exact absurd h.symm (reprChar_head hf hq c _ _)
  | cons c cs ih =>
    cases t with
    | nil =>
      rw [List.flatMap_cons, List.map_append, List.append_assoc] at h
      exact absurd h (reprChar_head hf hq c _ _)
    | cons d ds =>
      rw [List.flatMap_cons, List.flatMap_cons, List.map_append, List.map_append, List.append_assoc, List.append_assoc] at h
      obtain ⟨h1, h2⟩ := reprChar_step hf hq h
      obtain ⟨h3, h4⟩ := ih h2
      exact ⟨by rw [List.map_cons, List.map_cons, h1, h3], h4⟩

theorem reprQuote_cases (s : Str) : reprQuote s = '\'' ∨ reprQuote s = '"' := by
  unfold reprQuote
  split
  · exact .inr rfl
  · exact .inl rfl

theorem reprText_inj {f : Char → Char} (hf : CaseFun f) {s t x y : Str} (h : (reprText s).map f ++ x = (reprText t).map f ++ y) :
    s.map f = t.map f ∧ x = y := by
  have hqf : ∀ u : Str, f (reprQuote u) = reprQuote u := fun u =>
    (hf.fix (by rcases reprQuote_cases u with h | h <;> rw [h] <;> decide) (by rcases reprQuote_cases u with h | h <;> rw [h] <;> decide)).1
  unfold reprText at h
  simp only [List.map_cons, List.map_append, List.map_nil, List.cons_append, List.append_assoc, List.nil_append, hqf, List.cons.injEq] at h
  obtain ⟨hq, h⟩ := h
  rw [← hq] at h
  exact reprBody_inj hf (reprQuote_cases s) h

theorem formatNat_caseFun {f : Char → Char} (hf : CaseFun f) (n : Nat) : (formatNat n).map f = formatNat n := by
  rw [List.map_congr_left (g := id), List.map_id]
  intro c hc
  obtain ⟨d, hd, rfl⟩ := formatNat_digits n c hc
  have : ∀ d < 10, (digitChar d).isUpper = false ∧ (digitChar d).isLower = false := by decide
  exact (hf.fix (this d hd).1 (this d hd).2).1

theorem entry_inj {f : Char → Char} (hf : CaseFun f) {s t x y : Str} {m n : Nat}
    (h : ("(".toList ++ reprText s ++ ", ".toList ++ formatNat m ++ ")".toList).map f ++ x =
      ("(".toList ++ reprText t ++ ", ".toList ++ formatNat n ++ ")".toList).map f ++ y) : s.map f = t.map f ∧ m = n ∧ x = y := by
  have h1 : f '(' = '(' := (hf.fix (by decide) (by decide)).1
  have h2 : f ')' = ')' := (hf.fix (by decide) (by decide)).1
  have h3 : f ',' = ',' := (hf.fix (by decide) (by decide)).1
  have h4 : f ' ' = ' ' := (hf.fix (by decide) (by decide)).1
  have e1 : "(".toList = ['('] := rfl
  have e2 : ")".toList = [')'] := rfl
  have e3 : ", ".toList = [',', ' '] := rfl
  simp only [e1, e2, e3, List.map_append, List.map_cons, List.map_nil, h1, h2, h3, h4, formatNat_caseFun hf, List.append_assoc, List.cons_append,
    List.nil_append, List.cons.injEq, true_and] at h
  obtain ⟨ha, hb⟩ := reprText_inj hf h
  simp only [List.cons.injEq, true_and] at hb
  have hp : ∀ n : Nat, ')' ∉ formatNat n := by
    intro n hm
    obtain ⟨d, hd, he⟩ := formatNat_digits n _ hm
    have : ∀ d < 10, digitChar d ≠ ')' := by decide
    exact this d hd he.symm
  obtain ⟨hc, hd⟩ := sep_inj (hp m) (hp n) hb
  exact ⟨ha, by have := congrArg pyInt hc; rw [pyInt_formatNat, pyInt_formatNat] at this; exact Int.ofNat.inj (Option.some.inj this), hd⟩

/-! ### Labels of appliances -/

/-- C107. The label of an appliance tells its type and instance: two appliances of known type with the same label have both in common. -/
theorem C107_appliance {a b : LabAppl} (ha : a.type ≠ "unknown".toList) (hb : b.type ≠ "unknown".toList) (h : a.label = b.label) :
    a.type = b.type ∧ a.inst = b.inst := by
  unfold LabAppl.label LabAppl.ending at h
  rw [if_neg ha, if_neg hb] at h
  have := entry_inj (f := id) (.inl rfl) (x := []) (y := []) (s := a.type) (t := b.type) (m := a.inst) (n := b.inst) (by
    rw [List.map_id, List.map_id]; exact h)
  rw [List.map_id, List.map_id] at this
  exact ⟨this.1, this.2.1⟩

example : (⟨"fridge".toList, 1, false, none⟩ : LabAppl).label = "('fridge', 1)".toList ∧
    (⟨"baker's oven".toList, 12, false, none⟩ : LabAppl).label = "(\"baker's oven\", 12)".toList ∧
    (⟨"unknown".toList, 2, false, some "plug".toList⟩ : LabAppl).label = "('unknown', 2), original name = plug".toList := by decide +kernel

theorem capitalize_upper (s : Str) : (capitalizeText s).map Char.toUpper = s.map Char.toUpper := by
  cases s with
  | nil => rfl
  | cons c cs => simp [capitalizeText, Function.comp_def]

theorem upper_digit {s : Str} (h : ∀ c ∈ s, digitVal c = none) : ∀ c ∈ s.map Char.toUpper, digitVal c = none := by
  intro c hc
  obtain ⟨d, hd, rfl⟩ := List.mem_map.1 hc
  by_contra hn
  obtain ⟨v, hv⟩ := Option.ne_none_iff_exists'.1 hn
  have hu : (d.toUpper).isUpper = false := by
    obtain ⟨h1, h2⟩ := digitVal_some hv
    rw [h2]
    have : ∀ d < 10, (digitChar d).isUpper = false := by decide
    exact this v h1
  have := toUpper_nonletter hu rfl
  rw [← this, h d hd] at hn
  exact hn rfl

/-- C107. The pretty label of an appliance, such as `Fridge` or `Fridge 2`, tells its type but for case and its instance, if types have
no digits. -/
theorem C107_appliance_pretty {a b : LabAppl} (ha : a.type ≠ "unknown".toList) (hb : b.type ≠ "unknown".toList)
    (hda : ∀ c ∈ a.type, digitVal c = none) (hdb : ∀ c ∈ b.type, digitVal c = none) (hia : 1 ≤ a.inst) (hib : 1 ≤ b.inst)
    (h : a.prettyLabel = b.prettyLabel) : SameButCase a.type b.type ∧ a.inst = b.inst := by
  have hcf : CaseFun Char.toUpper := .inr rfl
  unfold LabAppl.prettyLabel LabAppl.ending at h
  rw [if_neg ha, if_neg hb, List.append_nil, List.append_nil] at h
  have h := congrArg (List.map Char.toUpper) h
  rw [List.map_append, List.map_append, capitalize_upper, capitalize_upper] at h
  have hs : ∀ n : Nat, (' ' :: formatNat n).map Char.toUpper = ' ' :: formatNat n := by
    intro n
    rw [List.map_cons, formatNat_caseFun hcf]
    rfl
  have hdig : ∀ (x : Str) (n : Nat), (∀ c ∈ x, digitVal c = none) → ∀ y : Str, x ≠ y ++ formatNat n := by
    intro x n hx y he
    obtain ⟨c, cs, hc⟩ := List.exists_cons_of_ne_nil (formatNat_ne_nil n)
    have hm : c ∈ x := by rw [he, hc]; simp
    obtain ⟨d, hd, hcd⟩ := formatNat_digits n c (by rw [hc]; exact List.mem_cons_self)
    have := hx c hm
    rw [hcd, digitVal_digitChar d hd] at this
    cases this
  by_cases h1 : a.inst > 1 <;> by_cases h2 : b.inst > 1
  · rw [if_pos h1, if_pos h2, hs, hs] at h
    have hr := congrArg List.reverse h
    rw [List.reverse_append, List.reverse_append, List.reverse_cons, List.reverse_cons, List.append_assoc, List.append_assoc] at hr
    have hsp : ∀ n : Nat, ' ' ∉ (formatNat n).reverse := by
      intro n hm
      obtain ⟨d, hd, he⟩ := formatNat_digits n _ (List.mem_reverse.1 hm)
      have : ∀ d < 10, digitChar d ≠ ' ' := by decide
      exact this d hd he.symm
    obtain ⟨e1, e2⟩ := sep_inj (hsp _) (hsp _) hr
    refine ⟨List.reverse_inj.1 e2, ?_⟩
    have := congrArg pyInt (List.reverse_inj.1 e1)
    rw [pyInt_formatNat, pyInt_formatNat] at this
    exact Int.ofNat.inj (Option.some.inj this)
  · rw [if_pos h1, if_neg h2, hs, List.map_nil, List.append_nil] at h
    refine absurd h.symm ?_
    have := hdig (b.type.map Char.toUpper) a.inst (upper_digit hdb) (a.type.map Char.toUpper ++ [' '])
    simpa using this
  · rw [if_neg h1, if_pos h2, hs, List.map_nil, List.append_nil] at h
    refine absurd h ?_
    have := hdig (a.type.map Char.toUpper) b.inst (upper_digit hda) (b.type.map Char.toUpper ++ [' '])
    simpa using this
  · rw [if_neg h1, if_neg h2, List.map_nil, List.append_nil, List.append_nil] at h
    exact ⟨h, by omega⟩

example : (⟨"washing machine".toList, 2, false, none⟩ : LabAppl).prettyLabel = "Washing machine 2".toList := by decide +kernel

/-- C107, negation. With digits in the type two appliances have one pretty label. -/
theorem C107_appliance_pretty_counterexample :
    (⟨"light".toList, 2, false, none⟩ : LabAppl).prettyLabel = (⟨"light 2".toList, 1, false, none⟩ : LabAppl).prettyLabel := by decide +kernel

/-! ### Labels of meters -/

theorem joinComma_map (f : Char → Char) (hc : f ',' = ',') (hs : f ' ' = ' ') (ps : List Str) :
    (joinComma ps).map f = joinComma (ps.map (List.map f)) := by
  induction ps with
  | nil => rfl
  | cons p ps ih =>
    cases ps with
    | nil => rfl
    | cons q qs =>
      rw [List.map_cons, List.map_cons] at *
      rw [joinComma, joinComma, List.map_append, List.map_append, ih]
      have : (", ".toList).map f = ", ".toList := by
        show [f ',', f ' '] = [',', ' ']
        rw [hc, hs]
      rw [this]

/-- The label of an appliance of known type, with letters as `f` writes them. -/
def entryOf (f : Char → Char) (a : LabAppl) : Str :=
  ("(".toList ++ reprText a.type ++ ", ".toList ++ formatNat a.inst ++ ")".toList).map f

theorem entryOf_inj {f : Char → Char} (hf : CaseFun f) {a b : LabAppl} {x y : Str} (h : entryOf f a ++ x = entryOf f b ++ y) :
    (a.type.map f = b.type.map f ∧ a.inst = b.inst) ∧ x = y := by
  obtain ⟨h1, h2, h3⟩ := entry_inj hf h
  exact ⟨⟨h1, h2⟩, h3⟩

theorem join_entries_inj {f : Char → Char} (hf : CaseFun f) {as bs : List LabAppl} (ha : ∀ a ∈ as, a.type ≠ "unknown".toList)
    (hb : ∀ b ∈ bs, b.type ≠ "unknown".toList)
    (h : joinComma (as.map (fun a => a.label.map f)) = joinComma (bs.map (fun b => b.label.map f))) :
    List.Forall₂ (fun a b : LabAppl => a.type.map f = b.type.map f ∧ a.inst = b.inst) as bs := by
  have hlab : ∀ a : LabAppl, a.type ≠ "unknown".toList →
      a.label.map f = entryOf f a := by
    intro a ha
    unfold entryOf LabAppl.label LabAppl.ending
    rw [if_neg ha, List.append_nil]
  have hpos : ∀ a : LabAppl, a.label.map f ≠ [] := by
    intro a
    have : a.label ≠ [] := by simp [LabAppl.label]
    simpa using this
  induction as generalizing bs with
  | nil =>
    cases bs with
    | nil => exact .nil
    | cons b bs =>
      exfalso
      cases bs with
      | nil => exact hpos b h.symm
      | cons c cs =>
        rw [List.map_nil, joinComma, List.map_cons, List.map_cons, joinComma] at h
        exact hpos b (List.append_eq_nil_iff.1 (List.append_eq_nil_iff.1 h.symm).1).1
  | cons a as ih =>
    cases bs with
    | nil =>
      exfalso
      cases as with
      | nil => exact hpos a h
      | cons c cs =>
        rw [List.map_nil, joinComma, List.map_cons, List.map_cons, joinComma] at h
        exact hpos a (List.append_eq_nil_iff.1 (List.append_eq_nil_iff.1 h).1).1
    | cons b bs =>
      have hla := hlab a (ha a List.mem_cons_self)
      have hlb := hlab b (hb b List.mem_cons_self)
      have has : ∀ a ∈ as, a.type ≠ "unknown".toList := fun x hx => ha x (List.mem_cons_of_mem _ hx)
      have hbs : ∀ a ∈ bs, a.type ≠ "unknown".toList := fun x hx => hb x (List.mem_cons_of_mem _ hx)
      cases as with
      | nil =>
        cases bs with
        | nil =>
          rw [List.map_cons, List.map_nil, List.map_cons, List.map_nil, joinComma, joinComma, hla, hlb] at h
          exact .cons (entryOf_inj hf (x := []) (y := []) (congrArg (· ++ []) h)).1 .nil
        | cons d ds =>
          rw [List.map_cons, List.map_nil, List.map_cons, List.map_cons, joinComma, joinComma, hla, hlb, List.append_assoc] at h
          have h3 := (entryOf_inj hf ((List.append_nil (entryOf f a)).trans h)).2
          exact absurd h3 (by simp)
      | cons c cs =>
        cases bs with
        | nil =>
          rw [List.map_cons, List.map_cons, List.map_cons, List.map_nil, joinComma, joinComma, hla, hlb, List.append_assoc] at h
          have h3 := (entryOf_inj hf (h.trans (List.append_nil (entryOf f b)).symm)).2
          exact absurd h3 (by simp)
        | cons d ds =>
          rw [List.map_cons, List.map_cons, List.map_cons, List.map_cons, joinComma, joinComma, hla, hlb, List.append_assoc,
            List.append_assoc] at h
          obtain ⟨h1, h3⟩ := entryOf_inj hf h
          refine .cons h1 (ih has hbs ?_)
          rw [List.map_cons, List.map_cons]
          exact List.append_cancel_left h3

/-- C107. The long labels of two submeters without the key `name` tell their appliances: if they are equal, the meters have the same
number of appliances, in order of the same instances and of the same types but for case; and of the same types if none is dominant. -/
theorem C107_long {m m' : LabMeter} (hs : m.site = false) (hs' : m'.site = false) (hn : m.name = none) (hn' : m'.name = none)
    (hu : ∀ a ∈ m.appliances, a.type ≠ "unknown".toList) (hu' : ∀ a ∈ m'.appliances, a.type ≠ "unknown".toList)
    (h : m.label (some false) = m'.label (some false)) :
    List.Forall₂ (fun a b : LabAppl => SameButCase a.type b.type ∧ a.inst = b.inst) m.appliances m'.appliances ∧
    ((∀ a ∈ m.appliances ++ m'.appliances, a.dominant = false) →
      List.Forall₂ (fun a b : LabAppl => a.type = b.type ∧ a.inst = b.inst) m.appliances m'.appliances) := by
  have hl : ∀ m : LabMeter, m.site = false → m.name = none → m.label (some false) = .ok (joinComma m.applianceNames) := by
    intro m h1 h2
    simp [LabMeter.label, LabMeter.longLabel, h1, h2]
  rw [hl m hs hn, hl m' hs' hn'] at h
  have h := Except.ok.inj h
  constructor
  · have h := congrArg (List.map Char.toUpper) h
    rw [joinComma_map _ (by decide) (by decide), joinComma_map _ (by decide) (by decide)] at h
    have hup : ∀ m : LabMeter, m.applianceNames.map (List.map Char.toUpper) = m.appliances.map (fun a => a.label.map Char.toUpper) := by
      intro m
      unfold LabMeter.applianceNames
      rw [List.map_map]
      apply List.map_congr_left
      intro a _
      simp only [Function.comp]
      split
      · rw [List.map_map]
        apply List.map_congr_left
        intro c _
        simp
      · rfl
    rw [hup, hup] at h
    exact join_entries_inj (.inr rfl) hu hu' h
  · intro hd
    have hid : ∀ m : LabMeter, (∀ a ∈ m.appliances, a.dominant = false) → m.applianceNames = m.appliances.map (fun a => a.label.map id) := by
      intro m hm
      unfold LabMeter.applianceNames
      apply List.map_congr_left
      intro a ha
      rw [hm a ha, List.map_id]
      rfl
    rw [hid m (fun a ha => hd a (List.mem_append_left _ ha)), hid m' (fun a ha => hd a (List.mem_append_right _ ha))] at h
    have := join_entries_inj (.inl rfl) hu hu' h
    simpa only [List.map_id] using this

example : (⟨none, false, [⟨"fridge".toList, 1, false, none⟩, ⟨"kettle".toList, 2, true, none⟩]⟩ : LabMeter).label (some false) =
    .ok "('fridge', 1), ('KETTLE', 2)".toList := by decide +kernel

/-- C107, negation. A name can be the label of another meter, and all site meters have the same long label. -/
theorem C107_long_counterexample :
    (⟨none, false, [⟨"fridge".toList, 1, false, none⟩]⟩ : LabMeter).label (some false) =
      (⟨some (some "('fridge', 1)".toList), false, [⟨"kettle".toList, 1, false, none⟩]⟩ : LabMeter).label (some false) ∧
    ∀ m m' : LabMeter, m.site = true → m'.site = true → m.label (some false) = m'.label (some false) := by
  refine ⟨by decide +kernel, ?_⟩
  intro m m' h h'
  simp [LabMeter.label, LabMeter.longLabel, h, h']

theorem find_none_all {as : List LabAppl} (h : as.find? (fun b => b.dominant) = none) : ∀ b ∈ as, b.dominant = false := by
  intro b hb
  have := List.find?_eq_none.1 h b hb
  simpa using this

theorem dominant_names {m : LabMeter} {a : LabAppl} (h : m.dominant = some a) : m.Names a := by
  unfold LabMeter.dominant at h
  split at h
  · cases h
  · rename_i b hb
    cases h
    refine ⟨[], [], hb, by simp, ?_⟩
    cases a.dominant <;> simp
  · rename_i b bs hbs hb
    split at h
    · rename_i c hc
      cases h
      obtain ⟨h1, pre, post, h2, h3⟩ := List.find?_eq_some_iff_append.1 hc
      exact ⟨pre, post, by rw [hb, h2], fun x hx => by simpa using h3 x hx, .inl h1⟩
    · rename_i hc
      cases h
      have := find_none_all hc
      exact ⟨[], bs, hb, by simp, .inr ⟨rfl, fun x hx => this x (List.mem_cons_of_mem _ hx)⟩⟩

theorem Names_unique {m : LabMeter} {a b : LabAppl} (ha : m.Names a) (hb : m.Names b) : a = b := by
  obtain ⟨p, q, h1, h2, h3⟩ := ha
  obtain ⟨p', q', h1', h2', h3'⟩ := hb
  rw [h1] at h1'
  rcases List.append_eq_append_iff.1 h1' with ⟨l, hl1, hl2⟩ | ⟨l, hl1, hl2⟩
  · cases l with
    | nil => exact (List.cons.inj hl2).1
    | cons c cs =>
      obtain ⟨e1, e2⟩ := List.cons.inj hl2
      subst e1
      have hd := h2' a (by rw [hl1]; simp)
      rcases h3' with h | ⟨h, -⟩
      · rcases h3 with h' | ⟨-, h'⟩
        · rw [hd] at h'; cases h'
        · rw [h' b (by rw [e2]; simp)] at h; cases h
      · rw [h] at hl1; simp at hl1
  · cases l with
    | nil => exact (List.cons.inj hl2).1.symm
    | cons c cs =>
      obtain ⟨e1, e2⟩ := List.cons.inj hl2
      subst e1
      have hd := h2 b (by rw [hl1]; simp)
      rcases h3 with h | ⟨h, -⟩
      · rcases h3' with h' | ⟨-, h'⟩
        · rw [hd] at h'; cases h'
        · rw [h' a (by rw [e2]; simp)] at h; cases h
      · rw [h] at hl1; simp at hl1

/-- C107. The pretty label of a submeter without name is the type of the appliance that it names, with a capital letter. It says nothing of
the instance. An empty type is an `IndexError`, and without appliances the label is empty. -/
theorem C107_pretty {m : LabMeter} (hn : m.Unnamed) (hs : m.site = false) :
    (m.appliances = [] → m.label (some true) = .ok []) ∧
    (m.appliances ≠ [] → ∃ a, m.Names a) ∧
    ∀ a, m.Names a → (a.type = [] → m.label (some true) = .error .indexError) ∧
      ∀ c cs, a.type = c :: cs → m.label (some true) = .ok (c.toUpper :: cs) := by
  have hl : m.label (some true) = match m.dominant with
      | some a => capitaliseFirst a.type
      | none => .ok (joinComma m.applianceNames) := by
    rcases hn with hn | hn | hn <;> simp [LabMeter.label, LabMeter.prettyLabel, hn, hs] <;> cases m.dominant <;> rfl
  have hd : m.appliances ≠ [] → ∃ a, m.dominant = some a := by
    intro h
    unfold LabMeter.dominant
    split
    · rename_i h'; exact absurd h' h
    · exact ⟨_, rfl⟩
    · split <;> exact ⟨_, rfl⟩
  refine ⟨?_, ?_, ?_⟩
  · intro h
    have h1 : m.dominant = none := by unfold LabMeter.dominant; rw [h]
    rw [hl, h1]
    simp [LabMeter.applianceNames, h, joinComma]
  · intro h
    obtain ⟨a, ha⟩ := hd h
    exact ⟨a, dominant_names ha⟩
  · intro a ha
    have hne : m.appliances ≠ [] := by
      obtain ⟨p, q, h, -⟩ := ha
      rw [h]; simp
    obtain ⟨b, hb⟩ := hd hne
    cases Names_unique ha (dominant_names hb)
    rw [hl, hb]
    refine ⟨?_, ?_⟩
    · intro h; simp only [h]; rfl
    · intro c cs h; simp only [h]; rfl

/-- C107. A name that is not empty is the pretty label, with a capital letter, whatever the meter; without a name a site meter is labelled
`Site meter`. -/
theorem C107_pretty_named (m : LabMeter) : (∀ c cs, m.name = some (some (c :: cs)) → m.label none = .ok (c.toUpper :: cs)) ∧
    (m.Unnamed → m.site = true → m.label none = .ok "Site meter".toList) := by
  constructor
  · intro c cs h
    simp [LabMeter.label, LabMeter.prettyLabel, h, capitaliseFirst]
  · intro hn hs
    rcases hn with hn | hn | hn <;> simp only [LabMeter.label, LabMeter.prettyLabel, hn, hs, Option.getD_none, if_true] <;> decide +kernel

example : (⟨none, false, [⟨"fridge".toList, 1, false, none⟩, ⟨"washing machine".toList, 1, true, none⟩]⟩ : LabMeter).label none =
    .ok "Washing machine".toList := by decide +kernel

/-- C107, negation. The pretty labels of the meters of two fridges are equal. -/
theorem C107_pretty_counterexample : ∃ m m' : LabMeter, m.site = false ∧ m'.site = false ∧ m.name = none ∧ m'.name = none ∧
    m.appliances ≠ [] ∧ m'.appliances ≠ [] ∧ (∀ a ∈ m.appliances, ∀ b ∈ m'.appliances, a.inst ≠ b.inst) ∧ m.label none = m'.label none :=
  ⟨⟨none, false, [⟨"fridge".toList, 1, false, none⟩]⟩, ⟨none, false, [⟨"fridge".toList, 2, false, none⟩]⟩, rfl, rfl, rfl, rfl, by simp, by simp,
    by simp, by decide +kernel⟩

/-! ### Labels of groups -/

theorem forall₂_mem_left {α β : Type} {R : α → β → Prop} {as : List α} {bs : List β} (h : List.Forall₂ R as bs) {a : α} (ha : a ∈ as) :
    ∃ b ∈ bs, R a b := by
  induction h with
  | nil => cases ha
  | cons hr _ ih =>
    rcases List.mem_cons.1 ha with rfl | ha
    · exact ⟨_, List.mem_cons_self, hr⟩
    · obtain ⟨b, hb, h⟩ := ih ha
      exact ⟨b, List.mem_cons_of_mem _ hb, h⟩

theorem forall₂_mem_right {α β : Type} {R : α → β → Prop} {as : List α} {bs : List β} (h : List.Forall₂ R as bs) {b : β} (hb : b ∈ bs) :
    ∃ a ∈ as, R a b := by
  induction h with
  | nil => cases hb
  | cons hr _ ih =>
    rcases List.mem_cons.1 hb with rfl | hb
    · exact ⟨_, List.mem_cons_self, hr⟩
    · obtain ⟨a, ha, h⟩ := ih hb
      exact ⟨a, List.mem_cons_of_mem _ ha, h⟩

theorem joinComma_parts (ps : List Str) : CommaParts (joinComma ps) ps := by
  induction ps with
  | nil => exact .nil
  | cons p ps ih =>
    cases ps with
    | nil => exact .one p
    | cons q qs =>
      rw [joinComma, List.append_assoc]
      exact .cons p (by simp) ih

theorem labels_forall {order : List Str → List Str} {pretty : Option Bool} {ms : List LabNode} {ls : List Str} :
    LabNode.labels order pretty ms = .ok ls ↔ List.Forall₂ (fun m l => LabNode.label order pretty m = .ok l) ms ls := by
  induction ms generalizing ls with
  | nil =>
    unfold LabNode.labels
    constructor
    · intro h; cases h; exact .nil
    · intro h; cases h; rfl
  | cons m ms ih =>
    unfold LabNode.labels
    cases hm : LabNode.label order pretty m with
    | error e =>
      constructor
      · intro h; cases h
      · intro h; cases h with | cons h1 h2 => rw [hm] at h1; cases h1
    | ok l =>
      cases hms : LabNode.labels order pretty ms with
      | error e =>
        constructor
        · intro h; cases h
        · intro h
          cases h with
          | cons h1 h2 => rw [ih.2 h2] at hms; cases hms
      | ok ls' =>
        constructor
        · intro h; cases h; exact .cons hm (ih.1 hms)
        · intro h
          cases h with
          | cons h1 h2 =>
            rw [hm] at h1
            cases h1
            rw [ih.2 h2] at hms
            cases hms
            rfl

theorem labels_error {order : List Str → List Str} {pretty : Option Bool} {ms : List LabNode} {e : Err} :
    LabNode.labels order pretty ms = .error e ↔ ∃ pre m post, ms = pre ++ m :: post ∧
      (∀ x ∈ pre, ∃ l, LabNode.label order pretty x = .ok l) ∧ LabNode.label order pretty m = .error e := by
  induction ms with
  | nil =>
    unfold LabNode.labels
    constructor
    · intro h; cases h
    · rintro ⟨pre, m, post, h, -⟩; simp at h
  | cons m ms ih =>
    cases hm : LabNode.label order pretty m with
    | error e' =>
      have this : LabNode.labels order pretty (m :: ms) = .error e' := by rw [LabNode.labels, hm]
      rw [this]
      constructor
      · intro h; cases h; exact ⟨[], m, ms, rfl, by simp, hm⟩
      · rintro ⟨pre, x, post, h, h1, h2⟩
        cases pre with
        | nil => cases h; rw [hm] at h2; cases h2; rfl
        | cons y ys =>
          cases h
          obtain ⟨l, hl⟩ := h1 m List.mem_cons_self
          rw [hm] at hl; cases hl
    | ok l =>
      have this : LabNode.labels order pretty (m :: ms) = .error e ↔ LabNode.labels order pretty ms = .error e := by
        rw [LabNode.labels, hm]
        cases LabNode.labels order pretty ms <;> simp
      rw [this, ih]
      constructor
      · rintro ⟨pre, x, post, h, h1, h2⟩
        refine ⟨m :: pre, x, post, by rw [h]; rfl, ?_, h2⟩
        intro y hy
        rcases List.mem_cons.1 hy with rfl | hy
        · exact ⟨l, hm⟩
        · exact h1 y hy
      · rintro ⟨pre, x, post, h, h1, h2⟩
        cases pre with
        | nil => cases h; rw [hm] at h2; cases h2
        | cons y ys =>
          cases h
          exact ⟨ys, x, post, rfl, fun z hz => h1 z (List.mem_cons_of_mem _ hz), h2⟩

/-- C107. The label of a group without name lists every distinct label of its meters once, separated by commas, in some order; it is an error
only if the label of a meter is. -/
theorem C107_group {order : List Str → List Str} (ho : ∀ l, (order l).Perm l) (pretty : Option Bool) {name : Option Str} (hn : name = none ∨ name = some [])
    (ms : List LabNode) :
    (∀ s, LabNode.label order pretty (.group name ms) = .ok s → ∃ ls, CommaParts s ls ∧ ls.Nodup ∧
      (∀ m ∈ ms, ∃ l ∈ ls, LabNode.label order pretty m = .ok l) ∧ ∀ l ∈ ls, ∃ m ∈ ms, LabNode.label order pretty m = .ok l) ∧
    (∀ e, LabNode.label order pretty (.group name ms) = .error e → ∃ m ∈ ms, LabNode.label order pretty m = .error e) := by
  have hl : LabNode.label order pretty (.group name ms) = (LabNode.labels order pretty ms).map (fun ls => joinComma (order ls.dedup)) := by
    rcases hn with rfl | rfl <;> rw [LabNode.label] <;> first | (cases LabNode.labels order pretty ms <;> rfl) | simp
  rw [hl]
  cases hms : LabNode.labels order pretty ms with
  | error e =>
    constructor
    · intro s h; cases h
    intro e' h
    cases h
    obtain ⟨pre, m, post, h1, -, h2⟩ := labels_error.1 hms
    exact ⟨m, by rw [h1]; simp, h2⟩
  | ok ls =>
    refine ⟨?_, ?_⟩
    rotate_left
    · intro e h; cases h
    intro s h
    cases h
    have hf := labels_forall.1 hms
    have hp := ho ls.dedup
    refine ⟨order ls.dedup, joinComma_parts _, hp.nodup_iff.2 (List.nodup_dedup ls), ?_, ?_⟩
    · intro m hm
      obtain ⟨l, hl, hml⟩ := forall₂_mem_left hf hm
      exact ⟨l, hp.mem_iff.2 (List.mem_dedup.2 hl), hml⟩
    · intro l hl
      exact forall₂_mem_right hf (List.mem_dedup.1 (hp.mem_iff.1 hl))

/-- C107. The label of a group with a name is the name, with a capital letter if `pretty=True` is given. -/
theorem C107_group_named (order : List Str → List Str) (c : Char) (cs : Str) (ms : List LabNode) :
    LabNode.label order (some true) (.group (some (c :: cs)) ms) = .ok (c.toUpper :: cs) ∧
    LabNode.label order (some false) (.group (some (c :: cs)) ms) = .ok (c :: cs) := by
  constructor <;> rw [LabNode.label] <;> rfl

/-- C107, negation. `label()` is `label(pretty=True)` for a meter, but not for a group of the same name. -/
theorem C107_default_counterexample (order : List Str → List Str) : (∀ m : LabMeter, m.label none = m.label (some true)) ∧
    ∃ name : Str, LabNode.label order none (.group (some name) []) ≠ LabNode.label order (some true) (.group (some name) []) := by
  refine ⟨fun m => rfl, "lights".toList, ?_⟩
  have : "lights".toList = 'l' :: "ights".toList := by decide
  rw [this, (C107_group_named order _ _ _).1, LabNode.label]
  simp only [reduceCtorEq, if_false]
  decide

theorem findAll_forall {ι : Type} {find : ι → Except Err LabNode} {ids : List ι} {ms : List LabNode} :
    findAll find ids = .ok ms ↔ List.Forall₂ (fun i m => find i = .ok m) ids ms := by
  induction ids generalizing ms with
  | nil =>
    unfold findAll
    constructor
    · intro h; cases h; exact .nil
    · intro h; cases h; rfl
  | cons i is ih =>
    unfold findAll
    cases hi : find i with
    | error e =>
      constructor
      · intro h; cases h
      · intro h; cases h with | cons h1 h2 => rw [hi] at h1; cases h1
    | ok m =>
      cases his : findAll find is with
      | error e =>
        constructor
        · intro h; cases h
        · intro h
          cases h with
          | cons h1 h2 => rw [ih.2 h2] at his; cases his
      | ok ms' =>
        constructor
        · intro h; cases h; exact .cons hi (ih.1 his)
        · intro h
          cases h with
          | cons h1 h2 =>
            rw [hi] at h1
            cases h1
            rw [ih.2 h2] at his
            cases his
            rfl

/-- C107. `get_labels` gives one label for every identifier, in their order, the label of the meter found for it; it succeeds if all
meters are found and have labels. -/
theorem C107_get_labels {ι : Type} (order : List Str → List Str) (find : ι → Except Err LabNode) (ids : List ι) (pretty : Bool) (ls : List Str) :
    getLabels order find ids pretty = .ok ls ↔
      List.Forall₂ (fun i l => ∃ m, find i = .ok m ∧ LabNode.label order (some pretty) m = .ok l) ids ls := by
  unfold getLabels
  constructor
  · intro h
    cases hf : findAll find ids with
    | error e => rw [hf] at h; cases h
    | ok ms =>
      rw [hf] at h
      have h1 := findAll_forall.1 hf
      have h2 := labels_forall.1 h
      clear h hf
      induction h1 generalizing ls with
      | nil => cases h2; exact .nil
      | cons a _ ih => cases h2 with | cons b c => exact .cons ⟨_, a, b⟩ (ih _ c)
  · intro h
    have : ∃ ms, List.Forall₂ (fun i m => find i = .ok m) ids ms ∧ List.Forall₂ (fun m l => LabNode.label order (some pretty) m = .ok l) ms ls := by
      induction h with
      | nil => exact ⟨[], .nil, .nil⟩
      | cons a _ ih =>
        obtain ⟨m, h1, h2⟩ := a
        obtain ⟨ms, h3, h4⟩ := ih
        exact ⟨m :: ms, .cons h1 h3, .cons h2 h4⟩
    obtain ⟨ms, h1, h2⟩ := this
    rw [findAll_forall.2 h1]
    exact labels_forall.2 h2

/-- C107. The error of `get_labels` is that of a meter that is not found or, if all are found, of a label. -/
theorem C107_get_labels_error {ι : Type} (order : List Str → List Str) (find : ι → Except Err LabNode) (ids : List ι) (pretty : Bool) (e : Err)
    (h : getLabels order find ids pretty = .error e) :
    (∃ i ∈ ids, find i = .error e) ∨ (∀ i ∈ ids, ∃ m, find i = .ok m) ∧ ∃ i ∈ ids, ∃ m, find i = .ok m ∧ LabNode.label order (some pretty) m = .error e := by
  unfold getLabels at h
  cases hf : findAll find ids with
  | error e' =>
    rw [hf] at h
    cases h
    left
    induction ids with
    | nil => cases hf
    | cons i is ih =>
      unfold findAll at hf
      cases hi : find i with
      | error e' => rw [hi] at hf; cases hf; exact ⟨i, List.mem_cons_self, hi⟩
      | ok m =>
        rw [hi] at hf
        cases his : findAll find is with
        | error e' =>
          rw [his] at hf
          cases hf
          obtain ⟨j, hj, hj'⟩ := ih his
          exact ⟨j, List.mem_cons_of_mem _ hj, hj'⟩
        | ok ms => rw [his] at hf; cases hf
  | ok ms =>
    rw [hf] at h
    right
    have h1 := findAll_forall.1 hf
    obtain ⟨pre, m, post, h2, -, h3⟩ := labels_error.1 h
    refine ⟨fun i hi => ?_, ?_⟩
    · obtain ⟨m, _, hm⟩ := forall₂_mem_left h1 hi
      exact ⟨m, hm⟩
    · obtain ⟨i, hi, him⟩ := forall₂_mem_right h1 (show m ∈ ms by rw [h2]; simp)
      exact ⟨i, hi, m, him, h3⟩

/-- Two meters of a group, one of them looked up twice. -/
example : getLabels id (fun i : Nat => if i = 1 then .ok (.meter ⟨none, true, []⟩) else if i = 2 then .ok (.group none [.meter ⟨none, false,
    [⟨"light".toList, 1, false, none⟩]⟩, .meter ⟨none, false, [⟨"light".toList, 2, false, none⟩]⟩]) else .error .keyError) [2, 1, 2] true =
    .ok ["Light".toList, "Site meter".toList, "Light".toList] := by decide +kernel

end Nilmtk
