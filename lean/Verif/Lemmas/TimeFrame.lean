import Verif.Spec.TimeFrame
import Mathlib.Tactic.Tauto
/-! Helper lemmas about the TimeFrame model. -/
namespace Nilmtk
open TF

theorem ctor_eq_ok {s e : Option Int} {f : TF} (h : ctor s e = .ok f) :
    f = mk' s e ∧ ∀ a b, s = some a → e = some b → a < b := by
  cases s <;> cases e <;> simp [ctor, blank, TF.setStart, TF.setEnd, TF.stop, TF.start] at h
  · exact ⟨h.symm, by simp⟩
  · exact ⟨h.symm, by simp⟩
  · exact ⟨h.symm, by simp⟩
  · split at h
    · rename_i hx; split at hx <;> simp at hx h
    · rename_i hx; split at hx <;> simp at hx h
      subst hx
      refine ⟨h.symm, ?_⟩
      intro a b ha hb; cases ha; cases hb; omega

theorem ctor_ok {s e : Option Int} (h : ∀ a b, s = some a → e = some b → a < b) :
    ctor s e = .ok (mk' s e) := by
  cases s <;> cases e <;> simp [ctor, blank, TF.setStart, TF.setEnd, TF.stop, TF.start, mk']
  rename_i a b
  have := h a b rfl rfl
  rw [if_neg (by omega)]

theorem ctor_error {a b : Int} (h : b ≤ a) :
    ctor (some a) (some b) = .error .valueError := by
  simp [ctor, blank, TF.setStart, TF.setEnd, TF.stop, TF.start, h]

/-- The frame as seen through its public attributes. -/
def vis (f : TF) : TF :=
  { rawStart := f.start, rawEnd := f.stop, enabled := true, empty := f.empty, includeEnd := f.includeEnd }

@[simp] theorem vis_start (f : TF) : (vis f).start = f.start := rfl
@[simp] theorem vis_stop (f : TF) : (vis f).stop = f.stop := rfl
@[simp] theorem vis_empty (f : TF) : (vis f).empty = f.empty := rfl
@[simp] theorem vis_inc (f : TF) : (vis f).includeEnd = f.includeEnd := rfl

theorem intersection_vis (a b : TF) : a.intersection b = (vis a).intersection (vis b) := rfl
theorem mem_vis (t : Int) (a : TF) : Mem t a ↔ Mem t (vis a) := Iff.rfl

@[simp] theorem inter_enabled (a b : TF) : (a.intersection b).enabled = true := by
  unfold TF.intersection
  split
  · rfl
  · split
    · split <;> rfl
    · rfl

/-- Visible bounds of an intersection. -/
theorem inter_cases (a b : TF) :
    ((a.intersection b).empty = true ∧ (a.intersection b).start = none ∧
        (a.intersection b).stop = none ∧
        (a.empty = true ∨ b.empty = true ∨
          ∃ s e, interStart a b = some s ∧ interEnd a b = some e ∧ e ≤ s)) ∨
    ((a.intersection b).empty = false ∧ (a.intersection b).start = interStart a b ∧
        (a.intersection b).stop = interEnd a b ∧
        (a.intersection b).includeEnd = interInclude a b ∧
        a.empty = false ∧ b.empty = false ∧
        ∀ s e, interStart a b = some s → interEnd a b = some e → s < e) := by
  unfold TF.intersection
  by_cases h : (a.empty || b.empty) = true
  · left
    simp only [h, if_true, TF.start, TF.stop, built]
    simp at h
    simp
    tauto
  · have h' := h
    simp at h'
    simp only [if_neg h]
    rcases hs : interStart a b with _ | s <;> rcases he : interEnd a b with _ | e
    · right; simp [TF.start, TF.stop, built, h']
    · right; simp [TF.start, TF.stop, built, h']
    · right; simp [TF.start, TF.stop, built, h']
    · by_cases hse : s ≥ e
      · left; simp [TF.start, TF.stop, built, hse]
      · right; simp [TF.start, TF.stop, built, hse, h']; omega

theorem interStart_le (a b : TF) (t : Int) :
    (∀ s, interStart a b = some s → s ≤ t) ↔
      (∀ s, a.start = some s → s ≤ t) ∧ (∀ s, b.start = some s → s ≤ t) := by
  unfold interStart
  generalize a.start = x
  generalize b.start = y
  cases x <;> cases y <;> simp
  omega

theorem interEnd_lt (a b : TF) (t : Int) :
    (∀ e, interEnd a b = some e → t < e) ↔
      (∀ e, a.stop = some e → t < e) ∧ (∀ e, b.stop = some e → t < e) := by
  unfold interEnd
  generalize a.stop = x
  generalize b.stop = y
  cases x <;> cases y <;> simp
  omega

theorem interEnd_incl (a b : TF) (t : Int)
    (htie : a.stop = b.stop → a.includeEnd = b.includeEnd) :
    (∀ e, interEnd a b = some e → t < e ∨ (interInclude a b = true ∧ t = e)) ↔
      (∀ e, a.stop = some e → t < e ∨ (a.includeEnd = true ∧ t = e)) ∧
      (∀ e, b.stop = some e → t < e ∨ (b.includeEnd = true ∧ t = e)) := by
  unfold interInclude interEnd
  revert htie
  generalize a.stop = x
  generalize b.stop = y
  cases x <;> cases y <;> simp
  rename_i p q
  intro htie
  rcases Int.lt_trichotomy p q with h | h | h
  · have h1 : min p q = p := by omega
    have h2 : p ≠ q := by omega
    simp [h1, h2]; omega
  · subst h; simp at htie; simp [htie]
  · have h1 : min p q = q := by omega
    simp [h1]; omega

/-- Later of two optional starts. -/
def omax : Option Int → Option Int → Option Int
  | none, y => y
  | x, none => x
  | some x, some y => some (max x y)
/-- Earlier of two optional ends. -/
def omin : Option Int → Option Int → Option Int
  | none, y => y
  | x, none => x
  | some x, some y => some (min x y)
/-- Start at or after end. -/
def conf (s e : Option Int) : Prop := ∃ x y, s = some x ∧ e = some y ∧ y ≤ x

theorem omax_assoc (x y z : Option Int) : omax (omax x y) z = omax x (omax y z) := by
  cases x <;> cases y <;> cases z <;> simp [omax, Int.max_assoc]
theorem omin_assoc (x y z : Option Int) : omin (omin x y) z = omin x (omin y z) := by
  cases x <;> cases y <;> cases z <;> simp [omin, Int.min_assoc]
theorem omax_comm (x y : Option Int) : omax x y = omax y x := by
  cases x <;> cases y <;> simp [omax, Int.max_comm]
theorem omin_comm (x y : Option Int) : omin x y = omin y x := by
  cases x <;> cases y <;> simp [omin, Int.min_comm]
theorem conf_mono {s e : Option Int} (s' e' : Option Int) (h : conf s e) :
    conf (omax s s') (omin e e') := by
  obtain ⟨x, y, rfl, rfl, h⟩ := h
  cases s' <;> cases e' <;> simp [conf, omax, omin] <;> omega

theorem interStart_eq (a b : TF) : interStart a b = omax a.start b.start := by
  unfold interStart omax; generalize a.start = x; generalize b.start = y
  cases x <;> cases y <;> rfl
theorem interEnd_eq (a b : TF) : interEnd a b = omin a.stop b.stop := by
  unfold interEnd omin; generalize a.stop = x; generalize b.stop = y
  cases x <;> cases y <;> rfl

theorem inter_empty_iff (a b : TF) : (a.intersection b).empty = true ↔
    a.empty = true ∨ b.empty = true ∨ conf (omax a.start b.start) (omin a.stop b.stop) := by
  rw [← interStart_eq, ← interEnd_eq]
  rcases inter_cases a b with ⟨h, hs, he, hc⟩ | ⟨h, hs, he, hi, hae, hbe, hc⟩
  · simp only [h, true_iff]; exact hc
  · simp only [h, hae, hbe, Bool.false_eq_true, false_or, false_iff]
    rintro ⟨x, y, h1, h2, h3⟩
    have := hc x y h1 h2; omega

theorem inter_bounds_of_nonempty (a b : TF) (h : (a.intersection b).empty = false) :
    (a.intersection b).start = omax a.start b.start ∧ (a.intersection b).stop = omin a.stop b.stop := by
  rw [← interStart_eq, ← interEnd_eq]
  rcases inter_cases a b with ⟨h', _⟩ | ⟨_, hs, he, _⟩
  · rw [h] at h'; cases h'
  · exact ⟨hs, he⟩

theorem inter_bounds_of_empty (a b : TF) (h : (a.intersection b).empty = true) :
    (a.intersection b).start = none ∧ (a.intersection b).stop = none := by
  rcases inter_cases a b with ⟨_, hs, he, _⟩ | ⟨h', _⟩
  · exact ⟨hs, he⟩
  · rw [h] at h'; cases h'

theorem inter3_empty_iff (a b c : TF) : ((a.intersection b).intersection c).empty = true ↔
    a.empty = true ∨ b.empty = true ∨ c.empty = true ∨
      conf (omax (omax a.start b.start) c.start) (omin (omin a.stop b.stop) c.stop) := by
  rw [inter_empty_iff]
  rcases h : (a.intersection b).empty with _ | _
  · obtain ⟨h1, h2⟩ := inter_bounds_of_nonempty a b h
    have h3 : ¬ (a.intersection b).empty = true := by simp [h]
    rw [inter_empty_iff] at h3
    rw [h1, h2]; simp; tauto
  · simp only [true_or, true_iff]
    rw [inter_empty_iff] at h
    rcases h with h | h | h
    · tauto
    · tauto
    · exact Or.inr (Or.inr (Or.inr (conf_mono _ _ h)))

theorem inter3_empty_iff' (a b c : TF) : (a.intersection (b.intersection c)).empty = true ↔
    a.empty = true ∨ b.empty = true ∨ c.empty = true ∨
      conf (omax (omax a.start b.start) c.start) (omin (omin a.stop b.stop) c.stop) := by
  rw [inter_empty_iff]
  rcases h : (b.intersection c).empty with _ | _
  · obtain ⟨h1, h2⟩ := inter_bounds_of_nonempty b c h
    have h3 : ¬ (b.intersection c).empty = true := by simp [h]
    rw [inter_empty_iff] at h3
    rw [h1, h2, omax_assoc, omin_assoc]; simp; tauto
  · simp only [true_or, or_true, true_iff]
    rw [inter_empty_iff] at h
    rcases h with h | h | h
    · tauto
    · tauto
    · have := conf_mono a.start a.stop h
      rw [omax_comm, omin_comm, ← omax_assoc, ← omin_assoc] at this
      tauto

end Nilmtk
