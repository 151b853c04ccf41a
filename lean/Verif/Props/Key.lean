import Verif.Model.Key
import Mathlib.Data.List.Basic
import Mathlib.Data.List.Chain
/-!
C37, C38: keys and paths.
-/
namespace Nilmtk

/-! ### Text of numbers -/

theorem digitVal_digitChar : ∀ d < 10, digitVal (digitChar d) = some d := by decide

theorem digitChar_facts : ∀ d < 10, digitChar d ≠ '/' ∧ digitChar d ≠ '-' ∧ digitChar d ≠ '+' ∧ digitChar d ≠ ' ' ∧
    digitChar d ≠ '\t' ∧ digitChar d ≠ '\n' ∧ digitChar d ≠ '\r' ∧ digitChar d ≠ 'b' ∧ digitChar d ≠ 'm' := by decide

theorem formatNat_digits (n : Nat) : ∀ c ∈ formatNat n, ∃ d < 10, c = digitChar d := by
  induction n using Nat.strongRecOn with
  | _ n ih =>
    rw [formatNat]
    split
    · intro c hc
      rw [List.mem_singleton] at hc
      exact ⟨n, by omega, hc⟩
    · intro c hc
      rcases List.mem_append.1 hc with hc | hc
      · exact ih (n / 10) (by omega) c hc
      · rw [List.mem_singleton] at hc
        exact ⟨n % 10, by omega, hc⟩

theorem formatNat_ne_nil (n : Nat) : formatNat n ≠ [] := by
  rw [formatNat]
  split <;> simp

theorem parseDigits_formatNat (n : Nat) (b : Bool) (rest : Str) :
    parseDigits 0 b (formatNat n ++ rest) = parseDigits n true rest := by
  induction n using Nat.strongRecOn generalizing b rest with
  | _ n ih =>
    rw [formatNat]
    split
    · rename_i h
      simp only [List.cons_append, List.nil_append, parseDigits, digitVal_digitChar n h]
      congr 1
      omega
    · rw [List.append_assoc, ih (n / 10) (by omega)]
      simp only [List.cons_append, List.nil_append, parseDigits, digitVal_digitChar (n % 10) (by omega)]
      congr 1
      omega

theorem dropWhile_head_false {p : Char → Bool} {s : Str} (h : ∀ c ∈ s, p c = false) : s.dropWhile p = s := by
  cases s with
  | nil => rfl
  | cons c s => rw [List.dropWhile_cons_of_neg (by simp [h c List.mem_cons_self])]

theorem pyInt_formatNat (n : Nat) : pyInt (formatNat n) = some (n : Int) := by
  have hd := formatNat_digits n
  have hws : ∀ c ∈ formatNat n, (c == ' ' || c == '\t' || c == '\n' || c == '\r') = false := by
    intro c hc
    obtain ⟨d, hd, rfl⟩ := hd c hc
    obtain ⟨_, _, _, h1, h2, h3, h4, _⟩ := digitChar_facts d hd
    simp [h1, h2, h3, h4]
  unfold pyInt
  simp only
  rw [dropWhile_head_false hws, dropWhile_head_false (by
    intro c hc; exact hws c (List.mem_reverse.1 hc)), List.reverse_reverse]
  have hp := parseDigits_formatNat n false []
  rw [List.append_nil] at hp
  cases hf : formatNat n with
  | nil => exact absurd hf (formatNat_ne_nil n)
  | cons c cs =>
    obtain ⟨d, hd', hcd⟩ := hd c (by rw [hf]; exact List.mem_cons_self)
    obtain ⟨_, h1, h2, _⟩ := digitChar_facts d hd'
    rw [← hcd] at h1 h2
    rw [hf] at hp
    split
    · rename_i cs' heq; cases heq; exact absurd rfl h1
    · rename_i cs' heq; cases heq; exact absurd rfl h2
    · rw [hp]; rfl

theorem removeAll_of_not_mem (p : Char) (pat : Str) (s : Str) (h : p ∉ s) : removeAll (p :: pat) s = s := by
  induction s with
  | nil => rw [removeAll]
  | cons c cs ih =>
    rw [List.mem_cons, not_or] at h
    rw [removeAll, if_neg, ih h.2]
    simp only [List.isPrefixOf, Bool.and_eq_true, beq_iff_eq, not_and]
    intro hpc
    exact absurd hpc h.1

theorem removeAll_prefix (p : Char) (pat : Str) (s : Str) (h : p ∉ s) : removeAll (p :: pat) (p :: pat ++ s) = s := by
  rw [List.cons_append, removeAll, if_pos]
  · simp only [List.length_cons, Nat.add_sub_cancel, List.drop_left]
    exact removeAll_of_not_mem p pat s h
  · rw [← List.cons_append, List.isPrefixOf_iff_prefix]
    exact List.prefix_append _ _

/-! ### Slashes -/

theorem stripSlash_eq_self {s : Str} (h1 : s.head? ≠ some '/') (h2 : s.getLast? ≠ some '/') : stripSlash s = s := by
  unfold stripSlash
  have e1 : s.dropWhile (· == '/') = s := by
    cases s with
    | nil => rfl
    | cons c s => rw [List.dropWhile_cons_of_neg]; simpa using h1
  rw [e1]
  have e2 : s.reverse.dropWhile (· == '/') = s.reverse := by
    cases hr : s.reverse with
    | nil => rfl
    | cons c r =>
      rw [List.dropWhile_cons_of_neg]
      rw [← List.head?_reverse, hr] at h2
      simpa using h2
  rw [e2, List.reverse_reverse]

theorem stripSlash_cons (s : Str) : stripSlash ('/' :: s) = stripSlash s := by
  unfold stripSlash
  rw [List.dropWhile_cons_of_pos (by rfl)]

theorem stripSlash_snoc (s : Str) : stripSlash (s ++ ['/']) = stripSlash s := by
  unfold stripSlash
  rw [List.dropWhile_append]
  split
  · rename_i h
    rw [List.isEmpty_iff] at h
    rw [h]
    rfl
  · rw [List.reverse_append, List.reverse_singleton, List.singleton_append, List.dropWhile_cons_of_pos (by rfl)]

theorem stripSlash_head (s : Str) : (stripSlash s).head? ≠ some '/' := by
  unfold stripSlash
  intro h
  have hne := List.head?_dropWhile_not (· == '/') s
  generalize s.dropWhile (· == '/') = t at h hne
  rw [List.head?_reverse] at h
  cases t with
  | nil => simp at h
  | cons c t =>
    simp only [List.head?_cons] at hne
    have hsuf : (((c :: t).reverse).dropWhile (· == '/')) <:+ (c :: t).reverse := List.dropWhile_suffix _
    obtain ⟨pre, hpre⟩ := hsuf
    have hl : ((c :: t).reverse).getLast? = some '/' := by
      rw [← hpre, List.getLast?_append, h]
      rfl
    rw [List.getLast?_reverse, List.head?_cons] at hl
    cases hl
    simp at hne

theorem stripSlash_last (s : Str) : (stripSlash s).getLast? ≠ some '/' := by
  unfold stripSlash
  rw [List.getLast?_reverse]
  intro h
  have hne := List.head?_dropWhile_not (· == '/') ((s.dropWhile (· == '/')).reverse)
  rw [h] at hne
  simp at hne

theorem splitSlash_ne_nil (s : Str) : splitSlash s ≠ [] := by
  cases s with
  | nil => simp [splitSlash]
  | cons c s =>
    rw [splitSlash]
    split
    · simp
    · split <;> simp

theorem splitSlash_no_slash (s : Str) (h : '/' ∉ s) : splitSlash s = [s] := by
  induction s with
  | nil => rfl
  | cons c s ih =>
    rw [List.mem_cons, not_or] at h
    rw [splitSlash, if_neg (Ne.symm h.1), ih h.2]

theorem splitSlash_append (a b : Str) : splitSlash (a ++ '/' :: b) = splitSlash a ++ splitSlash b := by
  induction a with
  | nil => simp [splitSlash]
  | cons c a ih =>
    rw [List.cons_append, splitSlash, splitSlash]
    by_cases hc : c = '/'
    · rw [if_pos hc, if_pos hc, ih, List.cons_append]
    · rw [if_neg hc, if_neg hc, ih]
      cases hs : splitSlash a with
      | nil => exact absurd hs (splitSlash_ne_nil a)
      | cons p ps => rfl

/-! ### C37 -/

theorem formatNat_no_slash (n : Nat) : '/' ∉ formatNat n := by
  intro h
  obtain ⟨d, hd, hc⟩ := formatNat_digits n _ h
  exact (digitChar_facts d hd).1 hc.symm

theorem formatNat_last (n : Nat) (pre : Str) : (pre ++ formatNat n).getLast? ≠ some '/' := by
  intro h
  rw [List.getLast?_append] at h
  cases hl : (formatNat n).getLast? with
  | none => exact formatNat_ne_nil n (List.getLast?_eq_none_iff.1 hl)
  | some c =>
    rw [hl] at h
    cases h
    exact formatNat_no_slash n (List.mem_of_getLast? hl)

/-- C37. Writing a valid key and reading it back gives the same building and the same meter. -/
theorem C37_round_trip (k : Key) (hb : 1 ≤ k.building) (hm : ∀ m, k.meter = some m → 1 ≤ m) :
    ∃ s, k.repr = .ok s ∧ ∃ k', Key.parse s = .ok k' ∧ k'.building = k.building ∧ k'.meter = k.meter := by
  have hcheck : ∀ u, Key.check ⟨k.building, k.meter, u⟩ = .ok () := by
    intro u
    unfold Key.check
    rw [if_pos ⟨hb, hm⟩]
  refine ⟨k.text, by rw [Key.repr, hcheck k.utility], ?_⟩
  have hbn : ((k.building.toNat : Nat) : Int) = k.building := Int.toNat_of_nonneg (by omega)
  have e1 : ∀ n, pyInt (removeAll "building".toList ("building".toList ++ formatNat n)) = some (n : Int) := by
    intro n
    rw [show "building".toList = 'b' :: ['u', 'i', 'l', 'd', 'i', 'n', 'g'] from rfl, removeAll_prefix]
    · exact pyInt_formatNat n
    · intro h
      obtain ⟨d, hd, hc⟩ := formatNat_digits n _ h
      exact (digitChar_facts d hd).2.2.2.2.2.2.2.1 hc.symm
  have e2 : ∀ n, pyInt (removeAll "meter".toList ("meter".toList ++ formatNat n)) = some (n : Int) := by
    intro n
    rw [show "meter".toList = 'm' :: ['e', 't', 'e', 'r'] from rfl, removeAll_prefix]
    · exact pyInt_formatNat n
    · intro h
      obtain ⟨d, hd, hc⟩ := formatNat_digits n _ h
      exact (digitChar_facts d hd).2.2.2.2.2.2.2.2 hc.symm
  have hns : ∀ n, '/' ∉ "building".toList ++ formatNat n := by
    intro n h
    rcases List.mem_append.1 h with h | h
    · exact absurd h (by decide)
    · exact formatNat_no_slash n h
  have hns' : ∀ n, '/' ∉ "meter".toList ++ formatNat n := by
    intro n h
    rcases List.mem_append.1 h with h | h
    · exact absurd h (by decide)
    · exact formatNat_no_slash n h
  have hpre : ∀ (a b : Str), a.isPrefixOf (a ++ b) = true := by
    intro a b
    rw [List.isPrefixOf_iff_prefix]
    exact List.prefix_append _ _
  cases hmt : k.meter with
  | none =>
    have htext : k.text = '/' :: ("building".toList ++ formatNat k.building.toNat) := by
      unfold Key.text; rw [hmt]; simp
    have hsplit : splitSlash (stripSlash k.text) = ["building".toList ++ formatNat k.building.toNat] := by
      rw [htext, stripSlash_cons, stripSlash_eq_self (by simp) (formatNat_last _ _), splitSlash_no_slash _ (hns _)]
    have hc := hcheck none
    rw [hmt] at hc
    refine ⟨⟨k.building, none, none⟩, ?_, rfl, rfl⟩
    unfold Key.parse
    simp only [hsplit, List.headD_cons, hpre, if_true, e1, parseMeter, hbn, List.getElem?_cons_succ, List.getElem?_nil, hc]
  | some m =>
    have hmn : ((m.toNat : Nat) : Int) = m := Int.toNat_of_nonneg (by have := hm m hmt; omega)
    have htext : k.text = '/' :: (("building".toList ++ formatNat k.building.toNat) ++
        '/' :: ("elec".toList ++ '/' :: ("meter".toList ++ formatNat m.toNat))) := by
      unfold Key.text; rw [hmt]; simp
    have hsplit : splitSlash (stripSlash k.text) = ["building".toList ++ formatNat k.building.toNat, "elec".toList,
        "meter".toList ++ formatNat m.toNat] := by
      rw [htext, stripSlash_cons, stripSlash_eq_self (by simp), splitSlash_append, splitSlash_append,
        splitSlash_no_slash _ (hns _), splitSlash_no_slash _ (hns' _), splitSlash_no_slash "elec".toList (by decide)]
      · rfl
      · have := formatNat_last m.toNat (("building".toList ++ formatNat k.building.toNat) ++
          '/' :: ("elec".toList ++ '/' :: "meter".toList))
        simpa using this
    have hc := hcheck (some "elec".toList)
    rw [hmt] at hc
    refine ⟨⟨k.building, some m, some "elec".toList⟩, ?_, rfl, rfl⟩
    unfold Key.parse
    simp only [hsplit, List.headD_cons, hpre, if_true, e1, parseMeter, e2, hbn, hmn, List.getElem?_cons_succ,
      List.getElem?_cons_zero, hc]

theorem parse_check (s : Str) (k : Key) (h : Key.parse s = .ok k) : 1 ≤ k.building ∧ ∀ m, k.meter = some m → 1 ≤ m := by
  have key : ∀ k : Key, Key.check k = .ok () → 1 ≤ k.building ∧ ∀ m, k.meter = some m → 1 ≤ m := by
    intro k hk
    unfold Key.check at hk
    split at hk
    · assumption
    · cases hk
  unfold Key.parse at h
  simp only at h
  split at h
  · split at h
    · cases h
    · split at h
      · cases h
      · split at h
        · cases h
        · rename_i hc
          cases h
          exact key _ hc
  · cases h

/-! ### What is accepted as a number -/

/-- Specification: only the digits 0 to 9. -/
def AllDigits (g : Str) : Prop := ∀ c ∈ g, '0' ≤ c ∧ c ≤ '9'

/-- Specification: the number that digits stand for, continuing `acc`. -/
def decimalFrom (acc : Nat) (g : Str) : Nat := g.foldl (fun a c => a * 10 + (c.toNat - 48)) acc

/-- Specification: only blanks, tabs and line ends. -/
def AllBlank (g : Str) : Prop := ∀ c ∈ g, c = ' ' ∨ c = '\t' ∨ c = '\n' ∨ c = '\r'

/-- Specification: `t` is a number to Python: white space, a sign if need be, digits in groups with one underscore between groups,
white space. -/
def IntText (t : Str) (n : Int) : Prop :=
  ∃ (l sign g : Str) (gs : List Str) (r : Str), t = l ++ (sign ++ (g ++ gs.flatMap (fun x => '_' :: x))) ++ r ∧ AllBlank l ∧ AllBlank r ∧
    g ≠ [] ∧ AllDigits g ∧ (∀ x ∈ gs, x ≠ [] ∧ AllDigits x) ∧
    ((sign = [] ∨ sign = ['+']) ∧ n = decimalFrom 0 (g ++ gs.flatten) ∨ sign = ['-'] ∧ n = -(decimalFrom 0 (g ++ gs.flatten) : Int))

theorem digitVal_iff (c : Char) (d : Nat) : digitVal c = some d ↔ ('0' ≤ c ∧ c ≤ '9') ∧ d = c.toNat - 48 := by
  unfold digitVal
  by_cases h : '0' ≤ c ∧ c ≤ '9'
  · rw [if_pos h]
    simp only [Option.some.injEq, h, and_self, true_and]
    exact eq_comm
  · rw [if_neg h]
    simp [h]

theorem digitVal_none (c : Char) : digitVal c = none ↔ ¬ ('0' ≤ c ∧ c ≤ '9') := by
  unfold digitVal
  split <;> simp_all

theorem parseDigits_iff (cs : Str) : ∀ (acc : Nat) (b : Bool) (n : Nat), parseDigits acc b cs = some n ↔
    ∃ (g : Str) (gs : List Str), cs = g ++ gs.flatMap (fun x => '_' :: x) ∧ (b = false → g ≠ []) ∧ AllDigits g ∧
      (∀ x ∈ gs, x ≠ [] ∧ AllDigits x) ∧ n = decimalFrom acc (g ++ gs.flatten) := by
  induction cs with
  | nil =>
    intro acc b n
    constructor
    · intro h
      cases b with
      | false => simp [parseDigits] at h
      | true =>
        simp only [parseDigits, if_true, Option.some.injEq] at h
        exact ⟨[], [], rfl, by simp, by simp [AllDigits], by simp, by simp [decimalFrom, h]⟩
    · rintro ⟨g, gs, h1, h2, _, _, h5⟩
      have hg := List.append_eq_nil_iff.1 h1.symm
      have hgs : gs = [] := by
        cases gs with
        | nil => rfl
        | cons x xs => simp at hg
      subst hgs
      cases b with
      | false => exact absurd hg.1 (h2 rfl)
      | true => rw [h5, hg.1]; rfl
  | cons c cs ih =>
    intro acc b n
    rw [parseDigits]
    cases hd : digitVal c with
    | some d =>
      obtain ⟨hc, rfl⟩ := (digitVal_iff c d).1 hd
      simp only
      rw [ih]
      constructor
      · rintro ⟨g, gs, rfl, _, h3, h4, rfl⟩
        refine ⟨c :: g, gs, rfl, by simp, ?_, h4, rfl⟩
        intro x hx
        rcases List.mem_cons.1 hx with rfl | hx
        · exact hc
        · exact h3 x hx
      · rintro ⟨g, gs, h1, h2, h3, h4, h5⟩
        cases g with
        | nil =>
          cases gs with
          | nil => simp at h1
          | cons x xs =>
            simp only [List.flatMap_cons, List.nil_append, List.cons_append, List.cons.injEq] at h1
            rw [h1.1] at hc
            exact absurd hc (by decide)
        | cons a g =>
          simp only [List.cons_append, List.cons.injEq] at h1
          obtain ⟨rfl, rfl⟩ := h1
          exact ⟨g, gs, rfl, by simp, fun x hx => h3 x (List.mem_cons_of_mem _ hx), h4, h5⟩
    | none =>
      have hc := (digitVal_none c).1 hd
      simp only
      constructor
      · intro h
        split at h
        · rename_i hcb
          obtain ⟨rfl, rfl⟩ := hcb
          obtain ⟨g, gs, rfl, h2, h3, h4, rfl⟩ := (ih _ _ _).1 h
          refine ⟨[], g :: gs, by simp, by simp, by simp [AllDigits], ?_, by simp⟩
          intro x hx
          rcases List.mem_cons.1 hx with rfl | hx
          · exact ⟨h2 rfl, h3⟩
          · exact h4 x hx
        · cases h
      · rintro ⟨g, gs, h1, h2, h3, h4, h5⟩
        cases g with
        | cons a g =>
          simp only [List.cons_append, List.cons.injEq] at h1
          exact absurd (h3 c (by rw [h1.1]; exact List.mem_cons_self)) hc
        | nil =>
          cases gs with
          | nil => simp at h1
          | cons x xs =>
            simp only [List.flatMap_cons, List.nil_append, List.cons_append, List.cons.injEq] at h1
            obtain ⟨rfl, rfl⟩ := h1
            have hb : b = true := by
              cases b with
              | true => rfl
              | false => exact absurd rfl (h2 rfl)
            rw [if_pos ⟨rfl, hb⟩, ih]
            have hx := h4 x List.mem_cons_self
            exact ⟨x, xs, rfl, fun _ => hx.1, hx.2, fun y hy => h4 y (List.mem_cons_of_mem _ hy), by simpa using h5⟩

theorem trim_form (ws : Char → Bool) (s : Str) : ∃ l r, s = l ++ ((s.dropWhile ws).reverse.dropWhile ws).reverse ++ r ∧
    (∀ c ∈ l, ws c = true) ∧ ∀ c ∈ r, ws c = true := by
  refine ⟨s.takeWhile ws, ((s.dropWhile ws).reverse.takeWhile ws).reverse, ?_, ?_, ?_⟩
  · rw [List.append_assoc, ← List.reverse_append, List.takeWhile_append_dropWhile, List.reverse_reverse,
      List.takeWhile_append_dropWhile]
  · intro c hc
    exact List.all_eq_true.1 List.all_takeWhile c hc
  · intro c hc
    exact List.all_eq_true.1 List.all_takeWhile c (List.mem_reverse.1 hc)

theorem dropWhile_append_all {p : Char → Bool} {l : Str} (h : ∀ c ∈ l, p c = true) (s : Str) :
    (l ++ s).dropWhile p = s.dropWhile p := by
  induction l with
  | nil => rfl
  | cons c l ih =>
    rw [List.cons_append, List.dropWhile_cons_of_pos (h c List.mem_cons_self)]
    exact ih (fun x hx => h x (List.mem_cons_of_mem _ hx))

theorem trim_core (ws : Char → Bool) (l m r : Str) (hl : ∀ c ∈ l, ws c = true) (hr : ∀ c ∈ r, ws c = true)
    (hm : m ≠ []) (hm1 : ∀ c, m.head? = some c → ws c = false) (hm2 : ∀ c, m.getLast? = some c → ws c = false) :
    (((l ++ m ++ r).dropWhile ws).reverse.dropWhile ws).reverse = m := by
  have hhead : ∀ x : Str, x ≠ [] → (∀ c, x.head? = some c → ws c = false) → ∀ y, (x ++ y).dropWhile ws = x ++ y := by
    intro x hx h y
    cases x with
    | nil => exact absurd rfl hx
    | cons c x => rw [List.cons_append, List.dropWhile_cons_of_neg (by simp [h c rfl])]
  rw [List.append_assoc, dropWhile_append_all hl, hhead m hm hm1, List.reverse_append,
    dropWhile_append_all (fun c hc => hr c (List.mem_reverse.1 hc))]
  have := hhead m.reverse (by simpa using hm) (by rw [List.head?_reverse]; exact hm2) []
  rw [List.append_nil] at this
  rw [this, List.reverse_reverse]

/-- Texts of digit groups consist of digits and underscores. -/
theorem groups_ends (g : Str) (gs : List Str) (h1 : AllDigits g) (h2 : ∀ x ∈ gs, x ≠ [] ∧ AllDigits x) :
    ∀ c ∈ g ++ gs.flatMap (fun x => '_' :: x), ('0' ≤ c ∧ c ≤ '9') ∨ c = '_' := by
  intro c hc
  rcases List.mem_append.1 hc with hc | hc
  · exact Or.inl (h1 c hc)
  · obtain ⟨x, hx, hc⟩ := List.mem_flatMap.1 hc
    rcases List.mem_cons.1 hc with rfl | hc
    · exact Or.inr rfl
    · exact Or.inl ((h2 x hx).2 c hc)

/-- C37. Which texts are read as numbers in a key, and which number they stand for. -/
theorem C37_numbers (t : Str) (n : Int) : pyInt t = some n ↔ IntText t n := by
  have hblank : ∀ c : Char, (c == ' ' || c == '\t' || c == '\n' || c == '\r') = true ↔ (c = ' ' ∨ c = '\t' ∨ c = '\n' ∨ c = '\r') := by
    intro c
    simp only [Bool.or_eq_true, beq_iff_eq, or_assoc]
  unfold pyInt
  constructor
  · intro h
    obtain ⟨l, r, h1, h2, h3⟩ := trim_form (fun c => c == ' ' || c == '\t' || c == '\n' || c == '\r') t
    simp only at h h1
    generalize ((t.dropWhile (fun c => c == ' ' || c == '\t' || c == '\n' || c == '\r')).reverse.dropWhile
      (fun c => c == ' ' || c == '\t' || c == '\n' || c == '\r')).reverse = m at h h1
    have hl : AllBlank l := fun c hc => (hblank c).1 (h2 c hc)
    have hr : AllBlank r := fun c hc => (hblank c).1 (h3 c hc)
    subst h1
    split at h <;> rw [Option.map_eq_some_iff] at h <;> obtain ⟨k, hk, rfl⟩ := h <;>
      obtain ⟨g, gs, rfl, h5, h6, h7, rfl⟩ := (parseDigits_iff _ _ _ _).1 hk
    · exact ⟨l, ['-'], g, gs, r, by simp, hl, hr, h5 rfl, h6, h7, Or.inr ⟨rfl, rfl⟩⟩
    · exact ⟨l, ['+'], g, gs, r, by simp, hl, hr, h5 rfl, h6, h7, Or.inl ⟨Or.inr rfl, rfl⟩⟩
    · exact ⟨l, [], g, gs, r, by simp, hl, hr, h5 rfl, h6, h7, Or.inl ⟨Or.inl rfl, rfl⟩⟩
  · rintro ⟨l, sign, g, gs, r, rfl, hl, hr, hg, h6, h7, hs⟩
    have hin := groups_ends g gs h6 h7
    have hne : g ++ gs.flatMap (fun x => '_' :: x) ≠ [] := by simp [hg]
    have hp : parseDigits 0 false (g ++ gs.flatMap (fun x => '_' :: x)) = some (decimalFrom 0 (g ++ gs.flatten)) :=
      (parseDigits_iff _ _ _ _).2 ⟨g, gs, rfl, fun _ => hg, h6, h7, rfl⟩
    generalize g ++ gs.flatMap (fun x => '_' :: x) = body at hin hne hp
    have hnb : ∀ c, (('0' ≤ c ∧ c ≤ '9') ∨ c = '_' ∨ c = '+' ∨ c = '-') →
        (c == ' ' || c == '\t' || c == '\n' || c == '\r') = false := by
      intro c hc
      by_contra hcon
      rw [Bool.not_eq_false, hblank] at hcon
      rcases hcon with rfl | rfl | rfl | rfl <;> revert hc <;> decide
    have hsign : ∀ c ∈ sign, c = '+' ∨ c = '-' := by
      intro c hc
      rcases hs with ⟨rfl | rfl, _⟩ | ⟨rfl, _⟩ <;> simp at hc <;> simp [hc]
    have hall : ∀ c ∈ sign ++ body, (c == ' ' || c == '\t' || c == '\n' || c == '\r') = false := by
      intro c hc
      apply hnb
      rcases List.mem_append.1 hc with hc | hc
      · rcases hsign c hc with h | h <;> simp [h]
      · rcases hin c hc with h | h <;> simp [h]
    simp only
    rw [trim_core (fun c => c == ' ' || c == '\t' || c == '\n' || c == '\r') l (sign ++ body) r
      (fun c hc => (hblank c).2 (hl c hc)) (fun c hc => (hblank c).2 (hr c hc)) (by simp [hne])
      (fun c hc => hall c (List.mem_of_head? hc)) (fun c hc => hall c (List.mem_of_getLast? hc))]
    rcases hs with ⟨rfl | rfl, rfl⟩ | ⟨rfl, rfl⟩
    · obtain ⟨c, cs, rfl⟩ := List.exists_cons_of_ne_nil hne
      have hc := hin c List.mem_cons_self
      rw [List.nil_append]
      split
      · rename_i cs' heq; cases heq; exact absurd hc (by decide)
      · rename_i cs' heq; cases heq; exact absurd hc (by decide)
      · rw [hp]; rfl
    · simp [hp]
    · simp [hp]

/-- C37. Hence the key `building` followed by a text `t` is accepted exactly if `t` is a number of at least 1. -/
theorem C37_building_text (t : Str) (ht : '/' ∉ t) (hb : 'b' ∉ t) (n : Int) :
    Key.parse ("building".toList ++ t) = .ok ⟨n, none, none⟩ ↔ IntText t n ∧ 1 ≤ n := by
  have hns : '/' ∉ "building".toList ++ t := by
    intro h
    rcases List.mem_append.1 h with h | h
    · exact absurd h (by decide)
    · exact ht h
  have hsplit : splitSlash (stripSlash ("building".toList ++ t)) = ["building".toList ++ t] := by
    rw [stripSlash_eq_self, splitSlash_no_slash _ hns]
    · intro h; exact hns (List.mem_of_head? h)
    · intro h; exact hns (List.mem_of_getLast? h)
  have hrem : removeAll "building".toList ("building".toList ++ t) = t := by
    rw [show "building".toList = 'b' :: ['u', 'i', 'l', 'd', 'i', 'n', 'g'] from rfl, removeAll_prefix _ _ _ hb]
  have hpre : "building".toList.isPrefixOf ("building".toList ++ t) = true := by
    rw [List.isPrefixOf_iff_prefix]
    exact List.prefix_append _ _
  rw [← C37_numbers]
  unfold Key.parse
  simp only [hsplit, List.headD_cons, hpre, if_true, hrem]
  cases hp : pyInt t with
  | none => simp
  | some k =>
    simp only [parseMeter, List.getElem?_cons_succ, List.getElem?_nil, Key.check, reduceCtorEq, false_implies, implies_true,
      and_true, Option.some.injEq, ge_iff_le]
    by_cases hk : 1 ≤ k
    · rw [if_pos hk]
      simp only [Except.ok.injEq, Key.mk.injEq, and_true]
      constructor
      · rintro rfl; exact ⟨rfl, hk⟩
      · rintro ⟨rfl, _⟩; rfl
    · rw [if_neg hk]
      simp only [reduceCtorEq, false_iff]
      rintro ⟨rfl, h⟩
      exact hk h

example : IntText " +1_000 ".toList 1000 := by
  refine ⟨[' '], ['+'], ['1'], [['0', '0', '0']], [' '], by decide, ?_, ?_, by decide, ?_, ?_, by decide⟩
  · intro c hc; simp at hc; simp [hc]
  · intro c hc; simp at hc; simp [hc]
  · intro c hc; simp at hc; subst hc; decide
  · intro x hx
    simp at hx
    subst hx
    exact ⟨by decide, fun c hc => by simp at hc; subst hc; decide⟩

/-- C37. A key made from numbers is accepted exactly when building and meter are at least 1, and keeps them. -/
theorem C37_from_numbers (b : Int) (m : Option Int) :
    ((1 ≤ b ∧ ∀ x, m = some x → 1 ≤ x) → ∃ k, Key.ofNumbers b m = .ok k ∧ k.building = b ∧ k.meter = m) ∧
    (¬ (1 ≤ b ∧ ∀ x, m = some x → 1 ≤ x) → Key.ofNumbers b m = .error .assertionError) := by
  unfold Key.ofNumbers Key.check
  constructor
  · intro h
    rw [if_pos h]
    exact ⟨_, rfl, rfl, rfl⟩
  · intro h
    rw [if_neg h]

/-- C37. Every string accepted as a key stands for a building number of at least 1 and, if there is a meter, a meter number
of at least 1; its canonical text is accepted again and stands for the same building and meter. -/
theorem C37_normal_form (s : Str) (k : Key) (h : Key.parse s = .ok k) :
    1 ≤ k.building ∧ (∀ m, k.meter = some m → 1 ≤ m) ∧
    ∃ t, k.repr = .ok t ∧ ∃ k', Key.parse t = .ok k' ∧ k'.building = k.building ∧ k'.meter = k.meter ∧
      k'.repr = .ok t := by
  obtain ⟨h1, h2⟩ := parse_check s k h
  obtain ⟨t, h3, k', h4, h5, h6⟩ := C37_round_trip k h1 h2
  refine ⟨h1, h2, t, h3, k', h4, h5, h6, ?_⟩
  rw [← h3]
  obtain ⟨h7, h8⟩ := parse_check t k' h4
  unfold Key.repr Key.check Key.text
  rw [h5, h6]

/-- C37. Different keys have different texts. -/
theorem C37_injective (k k' : Key) (hb : 1 ≤ k.building) (hm : ∀ m, k.meter = some m → 1 ≤ m)
    (hb' : 1 ≤ k'.building) (hm' : ∀ m, k'.meter = some m → 1 ≤ m) (h : k.repr = k'.repr) :
    k.building = k'.building ∧ k.meter = k'.meter := by
  obtain ⟨s, h1, x, h2, h3, h4⟩ := C37_round_trip k hb hm
  obtain ⟨s', h1', x', h2', h3', h4'⟩ := C37_round_trip k' hb' hm'
  rw [h1, h1'] at h
  cases h
  rw [h2] at h2'
  cases h2'
  exact ⟨h3.symm.trans h3', h4.symm.trans h4'⟩

/-- C37. Leading and trailing slashes do not matter. -/
theorem C37_slashes (s : Str) : Key.parse ('/' :: s) = Key.parse s ∧ Key.parse (s ++ ['/']) = Key.parse s := by
  unfold Key.parse
  rw [stripSlash_cons, stripSlash_snoc]
  exact ⟨rfl, rfl⟩

/-- C37: text that is not canonical is accepted and changed: another utility is rewritten as `elec`, and anything
below a meter makes the meter disappear. -/
theorem C37_lossy_counterexample :
    (Key.parse "/building1/gas/meter2".toList = .ok ⟨1, some 2, some "gas".toList⟩ ∧
      Key.repr ⟨1, some 2, some "gas".toList⟩ = .ok "/building1/elec/meter2".toList) ∧
    (Key.parse "/building1/elec/meter2/cache".toList = .ok ⟨1, none, some "elec".toList⟩ ∧
      Key.repr ⟨1, none, some "elec".toList⟩ = .ok "/building1".toList) := by
  refine ⟨⟨by decide +kernel, by decide +kernel⟩, by decide +kernel, by decide +kernel⟩

example : Key.parse "/building12/elec/meter305".toList = .ok ⟨12, some 305, some "elec".toList⟩ := by decide +kernel
example : Key.parse "building0".toList = .error .assertionError := by decide +kernel
example : Key.parse "buildingx".toList = .error .valueError := by decide +kernel

/-! ### C38 -/

/-- The parts of a path that count. -/
def realParts (args : List Str) : List Str := (args.map stripSlash).filter (fun p => p ≠ [])

theorem joinLoop_eq (key : Str) (args : List Str) :
    joinLoop key args = key ++ ((realParts args).map (· ++ ['/'])).flatten := by
  induction args generalizing key with
  | nil => simp [joinLoop, realParts]
  | cons a as ih =>
    rw [joinLoop, ih]
    unfold realParts
    by_cases h : stripSlash a = []
    · rw [if_pos h, List.map_cons, List.filter_cons_of_neg (by simpa using h)]
    · rw [if_neg h, List.map_cons, List.filter_cons_of_pos (by simpa using h), List.map_cons, List.flatten_cons,
        List.append_assoc]

theorem flatten_slash (p : Str) (ps : List Str) :
    ((p :: ps).map (· ++ ['/'])).flatten = ['/'].intercalate (p :: ps) ++ ['/'] := by
  induction ps generalizing p with
  | nil => simp [List.intercalate]
  | cons q ps ih =>
    rw [List.map_cons, List.flatten_cons, ih, List.intercalate_cons_cons]
    simp

/-- C38. The result is a slash followed by the non-empty parts, stripped of slashes at their ends and separated
by single slashes. -/
theorem C38_form (args : List Str) : joinKey args = '/' :: ['/'].intercalate (realParts args) := by
  unfold joinKey
  simp only [joinLoop_eq]
  cases h : realParts args with
  | nil => simp [List.intercalate]
  | cons p ps =>
    rw [flatten_slash, if_pos (by simp)]
    rw [← List.append_assoc, List.dropLast_concat]
    rfl

theorem realParts_facts (args : List Str) : ∀ p ∈ realParts args, p ≠ [] ∧ p.head? ≠ some '/' ∧ p.getLast? ≠ some '/' := by
  intro p hp
  unfold realParts at hp
  rw [List.mem_filter, List.mem_map] at hp
  obtain ⟨⟨a, _, rfl⟩, h⟩ := hp
  exact ⟨by simpa using h, stripSlash_head a, stripSlash_last a⟩

theorem intercalate_ends (ps : List Str) (h : ∀ p ∈ ps, p ≠ [] ∧ p.head? ≠ some '/' ∧ p.getLast? ≠ some '/') :
    (['/'].intercalate ps).head? ≠ some '/' ∧ (['/'].intercalate ps).getLast? ≠ some '/' ∧
    (ps ≠ [] → ['/'].intercalate ps ≠ []) := by
  induction ps with
  | nil => simp [List.intercalate]
  | cons p ps ih =>
    obtain ⟨h1, h2, h3⟩ := h p List.mem_cons_self
    cases ps with
    | nil => simpa [List.intercalate] using ⟨h2, h3, h1⟩
    | cons q ps =>
      obtain ⟨k1, k2, k3⟩ := ih (fun x hx => h x (List.mem_cons_of_mem _ hx))
      rw [List.intercalate_cons_cons]
      refine ⟨?_, ?_, ?_⟩
      · cases p with
        | nil => exact absurd rfl h1
        | cons c p => simpa using h2
      · rw [List.getLast?_append]
        cases hl : (['/'].intercalate (q :: ps)).getLast? with
        | none => exact absurd (List.getLast?_eq_none_iff.1 hl) (k3 (by simp))
        | some c => rw [hl] at k2; simpa using k2
      · simp

/-- C38. The result starts with a slash, is just a slash only when no part counts, and otherwise does not end
with a slash and does not start with two. -/
theorem C38_normalised (args : List Str) :
    (joinKey args).head? = some '/' ∧ (joinKey args = ['/'] ↔ ∀ a ∈ args, stripSlash a = []) ∧
    (joinKey args ≠ ['/'] → (joinKey args).getLast? ≠ some '/' ∧ (joinKey args)[1]? ≠ some '/') := by
  obtain ⟨h1, h2, h3⟩ := intercalate_ends (realParts args) (realParts_facts args)
  have hnil : realParts args = [] ↔ ∀ a ∈ args, stripSlash a = [] := by
    unfold realParts
    rw [List.filter_eq_nil_iff]
    simp
  rw [C38_form]
  refine ⟨rfl, ?_, ?_⟩
  · rw [← hnil]
    constructor
    · intro h
      by_contra hc
      apply h3 hc
      injection h
    · intro h
      rw [h]
      simp [List.intercalate]
  · intro h
    have hne : ['/'].intercalate (realParts args) ≠ [] := by
      intro hc
      apply h
      rw [hc]
    constructor
    · cases hi : ['/'].intercalate (realParts args) with
      | nil => exact absurd hi hne
      | cons c cs => rw [List.getLast?_cons_cons, ← hi]; exact h2
    · rw [List.getElem?_cons_succ, ← List.head?_eq_getElem?]
      exact h1

theorem stripSlash_joinKey (args : List Str) : stripSlash (joinKey args) = ['/'].intercalate (realParts args) := by
  obtain ⟨h1, h2, _⟩ := intercalate_ends (realParts args) (realParts_facts args)
  rw [C38_form, stripSlash_cons, stripSlash_eq_self h1 h2]

/-- C38. Joining is associative: joining a joined path with further parts is joining all the parts. -/
theorem C38_associative (xs ys zs : List Str) : joinKey (xs ++ joinKey ys :: zs) = joinKey (xs ++ ys ++ zs) := by
  rw [C38_form (xs ++ joinKey ys :: zs), C38_form (xs ++ ys ++ zs)]
  have hr : realParts (xs ++ joinKey ys :: zs) = realParts xs ++
      (if realParts ys = [] then [] else [['/'].intercalate (realParts ys)]) ++ realParts zs := by
    unfold realParts
    rw [List.map_append, List.filter_append, List.map_cons, stripSlash_joinKey, List.append_assoc]
    congr 1
    by_cases h : realParts ys = []
    · have : (['/'].intercalate (realParts ys)) = [] := by rw [h]; rfl
      rw [List.filter_cons_of_neg (by simpa using this)]
      unfold realParts at h
      rw [if_pos h]; rfl
    · have := (intercalate_ends (realParts ys) (realParts_facts ys)).2.2 h
      rw [List.filter_cons_of_pos (by simpa using this)]
      unfold realParts at h
      rw [if_neg h]; rfl
  have hi : ∀ a b : List Str, b ≠ [] → ['/'].intercalate (['/'].intercalate b :: a) = ['/'].intercalate (b ++ a) := by
    intro a b hb
    induction b with
    | nil => exact absurd rfl hb
    | cons p b ih =>
      cases b with
      | nil => simp [List.intercalate]
      | cons q b =>
        have ih := ih (by simp)
        rw [List.cons_append, List.cons_append, List.intercalate_cons_cons, List.intercalate_cons_cons]
        rw [← List.cons_append, ← ih]
        cases a with
        | nil => simp [List.intercalate]
        | cons r a => rw [List.intercalate_cons_cons, List.intercalate_cons_cons]; simp
  have happ : ∀ (c a b : List Str), ['/'].intercalate a = ['/'].intercalate b → (a = [] ↔ b = []) →
      ['/'].intercalate (c ++ a) = ['/'].intercalate (c ++ b) := by
    intro c a b h hab
    induction c with
    | nil => exact h
    | cons p c ih =>
      cases hc : c ++ a with
      | nil =>
        have := List.append_eq_nil_iff.1 hc
        rw [List.cons_append, List.cons_append, this.1, this.2, hab.1 this.2]
      | cons q r =>
        cases hc' : c ++ b with
        | nil =>
          have := List.append_eq_nil_iff.1 hc'
          rw [this.1, hab.2 this.2] at hc
          cases hc
        | cons q' r' =>
          rw [List.cons_append, List.cons_append, hc, hc', List.intercalate_cons_cons, List.intercalate_cons_cons,
            ← hc, ← hc', ih]
  have hr' : realParts (xs ++ ys ++ zs) = realParts xs ++ (realParts ys ++ realParts zs) := by
    unfold realParts
    rw [List.map_append, List.map_append, List.filter_append, List.filter_append, List.append_assoc]
  rw [hr, hr', List.append_assoc]
  congr 1
  by_cases h : realParts ys = []
  · rw [if_pos h, h]
  · rw [if_neg h]
    apply happ
    · exact hi _ _ h
    · simp [h]

/-- C38. The elements of the joined path are the elements of the parts, in order. -/
theorem C38_elements (args : List Str) (h : realParts args ≠ []) :
    splitSlash (stripSlash (joinKey args)) = ((realParts args).map splitSlash).flatten := by
  rw [stripSlash_joinKey]
  generalize realParts args = parts at h
  induction parts with
  | nil => exact absurd rfl h
  | cons p ps ih =>
    cases ps with
    | nil => simp [List.intercalate]
    | cons q ps =>
      rw [List.intercalate_cons_cons, List.map_cons, List.flatten_cons, ← ih (by simp), List.append_assoc,
        List.singleton_append, splitSlash_append]

/-- No two slashes in a row. -/
def NoDouble (s : Str) : Prop := s.IsChain (fun a b => ¬ (a = '/' ∧ b = '/'))

/-- C38. Joining introduces no doubled slash. -/
theorem C38_no_double (args : List Str) (h : ∀ a ∈ args, NoDouble (stripSlash a)) : NoDouble (joinKey args) := by
  have hp : ∀ p ∈ realParts args, NoDouble p := by
    intro p hp
    unfold realParts at hp
    rw [List.mem_filter, List.mem_map] at hp
    obtain ⟨⟨a, ha, rfl⟩, _⟩ := hp
    exact h a ha
  have hf := realParts_facts args
  rw [C38_form]
  have key : ∀ ps : List Str, (∀ p ∈ ps, NoDouble p) →
      (∀ p ∈ ps, p ≠ [] ∧ p.head? ≠ some '/' ∧ p.getLast? ≠ some '/') →
      NoDouble ('/' :: ['/'].intercalate ps) := by
    intro ps h1 h2
    induction ps with
    | nil => simp [NoDouble, List.intercalate]
    | cons p ps ih =>
      have hd : NoDouble ('/' :: p) := by
        have hc := h1 p List.mem_cons_self
        have h2 := (h2 p List.mem_cons_self).2.1
        cases p with
        | nil => simp [NoDouble]
        | cons c p =>
          unfold NoDouble at hc ⊢
          rw [List.isChain_cons_cons]
          refine ⟨?_, hc⟩
          rintro ⟨_, rfl⟩
          exact h2 rfl
      cases ps with
      | nil => simpa [List.intercalate] using hd
      | cons q ps =>
        have ih := ih (fun x hx => h1 x (List.mem_cons_of_mem _ hx)) (fun x hx => h2 x (List.mem_cons_of_mem _ hx))
        rw [List.intercalate_cons_cons, List.append_assoc, List.singleton_append, ← List.cons_append]
        unfold NoDouble at hd ih ⊢
        rw [List.isChain_append]
        refine ⟨hd, ih, ?_⟩
        intro x hx y hy
        rintro ⟨rfl, _⟩
        have h3 := (h2 p List.mem_cons_self)
        cases p with
        | nil => exact h3.1 rfl
        | cons c p =>
          rw [List.getLast?_cons_cons] at hx
          exact h3.2.2 hx
  exact key _ hp hf

/-- C38: a doubled slash inside a part is kept. -/
theorem C38_inner_double_counterexample : joinKey ["a//b".toList] = "/a//b".toList := by decide +kernel

example : joinKey ["/building1/".toList, "".toList, "/".toList, "elec".toList, "/meter1".toList] = "/building1/elec/meter1".toList := by
  decide +kernel

end Nilmtk
