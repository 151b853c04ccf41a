import Verif.Model.Group
import Mathlib.Data.List.Basic
import Mathlib.Data.List.Perm.Basic
import Mathlib.Data.List.Count
/-!
Lemmas about hashing, equality and sets of meters.
-/
namespace Nilmtk

theorem hashKeys_eq (ms : List Meter) : Meter.hashKeys ms = ms.map Meter.hashKey := by
  induction ms with
  | nil => simp [Meter.hashKeys]
  | cons m ms ih => simp [Meter.hashKeys, ih]

mutual
theorem HKey.beq_iff : ∀ a b : HKey, HKey.beq a b = true ↔ a = b
  | .meter a, .meter b => by simp [HKey.beq]
  | .group n ms ds, .group n' ms' ds' => by
    simp [HKey.beq, HKey.beqs_iff ms ms', HKey.beqs_iff ds ds', and_assoc]
  | .meter _, .group _ _ _ => by simp [HKey.beq]
  | .group _ _ _, .meter _ => by simp [HKey.beq]
theorem HKey.beqs_iff : ∀ as bs : List HKey, HKey.beqs as bs = true ↔ as = bs
  | [], [] => by simp [HKey.beqs]
  | a :: as, b :: bs => by simp [HKey.beqs, HKey.beq_iff a b, HKey.beqs_iff as bs]
  | [], _ :: _ => by simp [HKey.beqs]
  | _ :: _, [] => by simp [HKey.beqs]
end

theorem sameHash_iff (a b : Meter) : sameHash a b = true ↔ a.hashKey = b.hashKey := HKey.beq_iff _ _

mutual
theorem pyEq_of_hash : ∀ a b : Meter, a.hashKey = b.hashKey → a.pyEq b = true
  | .elec a, .elec b, h => by simpa [Meter.hashKey, Meter.pyEq] using h
  | .group n ms ds, .group n' ns ds', h => by
    simp only [Meter.hashKey, HKey.group.injEq, hashKeys_eq] at h
    obtain ⟨-, h, -⟩ := h
    simp only [Meter.pyEq, Bool.and_eq_true, List.all_eq_true]
    constructor
    · apply allIn_of_hash
      intro x hx
      have : x.hashKey ∈ ns.map Meter.hashKey := h ▸ List.mem_map_of_mem hx
      obtain ⟨y, hy, e⟩ := List.mem_map.1 this
      exact ⟨y, hy, e.symm⟩
    · intro y hy
      apply anyIs_of_hash
      have : y.hashKey ∈ ms.map Meter.hashKey := h ▸ List.mem_map_of_mem hy
      obtain ⟨x, hx, e⟩ := List.mem_map.1 this
      exact ⟨x, hx, e⟩
  | .elec _, .group _ _ _, h => by simp [Meter.hashKey] at h
  | .group _ _ _, .elec _, h => by simp [Meter.hashKey] at h
theorem allIn_of_hash : ∀ ms ns : List Meter, (∀ x ∈ ms, ∃ y ∈ ns, x.hashKey = y.hashKey) → Meter.allIn ms ns = true
  | [], _, _ => by simp [Meter.allIn]
  | x :: xs, ns, h => by
    simp only [Meter.allIn, Bool.and_eq_true, List.any_eq_true, sameHash_iff]
    constructor
    · obtain ⟨y, hy, e⟩ := h x (by simp)
      exact ⟨y, hy, e, pyEq_of_hash x y e⟩
    · exact allIn_of_hash xs ns (fun z hz => h z (by simp [hz]))
theorem anyIs_of_hash : ∀ (ms : List Meter) (y : Meter), (∃ x ∈ ms, x.hashKey = y.hashKey) → Meter.anyIs ms y = true
  | [], _, h => by simp at h
  | x :: xs, y, h => by
    simp only [Meter.anyIs, Bool.or_eq_true, Bool.and_eq_true, sameHash_iff]
    obtain ⟨z, hz, e⟩ := h
    rcases List.mem_cons.1 hz with hx | hz
    · exact Or.inl ⟨hx ▸ e, pyEq_of_hash x y (hx ▸ e)⟩
    · exact Or.inr (anyIs_of_hash xs y ⟨z, hz, e⟩)
end

theorem allIn_iff (ms ns : List Meter) : Meter.allIn ms ns = true ↔ ∀ x ∈ ms, ∃ y ∈ ns, x.hashKey = y.hashKey := by
  refine ⟨fun h => ?_, allIn_of_hash ms ns⟩
  induction ms with
  | nil => simp
  | cons m ms ih =>
    simp only [Meter.allIn, Bool.and_eq_true, List.any_eq_true, sameHash_iff] at h
    intro x hx
    rcases List.mem_cons.1 hx with rfl | hx
    · obtain ⟨y, hy, e, -⟩ := h.1
      exact ⟨y, hy, e⟩
    · exact ih h.2 x hx

theorem anyIs_iff (ms : List Meter) (y : Meter) : Meter.anyIs ms y = true ↔ ∃ x ∈ ms, x.hashKey = y.hashKey := by
  refine ⟨fun h => ?_, anyIs_of_hash ms y⟩
  induction ms with
  | nil => simp [Meter.anyIs] at h
  | cons m ms ih =>
    simp only [Meter.anyIs, Bool.or_eq_true, Bool.and_eq_true, sameHash_iff] at h
    rcases h with h | h
    · exact ⟨m, by simp, h.1⟩
    · obtain ⟨x, hx, e⟩ := ih h
      exact ⟨x, by simp [hx], e⟩

theorem pyEq_group_iff (n n' : String) (ms ds ns ds' : List Meter) :
    (Meter.group n ms ds).pyEq (.group n' ns ds') = true ↔ ∀ k, k ∈ ms.map Meter.hashKey ↔ k ∈ ns.map Meter.hashKey := by
  simp only [Meter.pyEq, Bool.and_eq_true, List.all_eq_true, allIn_iff, anyIs_iff, List.mem_map]
  constructor
  · rintro ⟨h1, h2⟩ k
    constructor
    · rintro ⟨x, hx, rfl⟩
      obtain ⟨y, hy, e⟩ := h1 x hx
      exact ⟨y, hy, e.symm⟩
    · rintro ⟨y, hy, rfl⟩
      obtain ⟨x, hx, e⟩ := h2 y hy
      exact ⟨x, hx, e⟩
  · intro h
    constructor
    · intro x hx
      obtain ⟨y, hy, e⟩ := (h x.hashKey).1 ⟨x, hx, rfl⟩
      exact ⟨y, hy, e.symm⟩
    · intro y hy
      exact (h y.hashKey).2 ⟨y, hy, rfl⟩

theorem pyEq_refl (a : Meter) : a.pyEq a = true := pyEq_of_hash a a rfl

theorem pyEq_symm (a b : Meter) (h : a.pyEq b = true) : b.pyEq a = true := by
  cases a <;> cases b
  · simp only [Meter.pyEq, decide_eq_true_eq] at h ⊢; exact h.symm
  · simp [Meter.pyEq] at h
  · simp [Meter.pyEq] at h
  · rw [pyEq_group_iff] at h ⊢; exact fun k => (h k).symm

theorem pyEq_trans (a b c : Meter) (h : a.pyEq b = true) (h' : b.pyEq c = true) : a.pyEq c = true := by
  cases a <;> cases b <;> cases c <;> simp only [Meter.pyEq, decide_eq_true_eq, Bool.false_eq_true] at h h'
  · simp only [Meter.pyEq, decide_eq_true_eq]; exact h.trans h'
  · rename_i n1 m1 d1 n2 m2 d2 n3 m3 d3
    have e1 : (Meter.group n1 m1 d1).pyEq (.group n2 m2 d2) = true := by simpa only [Meter.pyEq] using h
    have e2 : (Meter.group n2 m2 d2).pyEq (.group n3 m3 d3) = true := by simpa only [Meter.pyEq] using h'
    rw [pyEq_group_iff] at e1 e2 ⊢
    exact fun k => (e1 k).trans (e2 k)

/-! ### Sets -/

theorem found_iff (acc : List Meter) (x : Meter) :
    (acc.any (fun y => sameHash x y && x.pyEq y)) = true ↔ x.hashKey ∈ acc.map Meter.hashKey := by
  simp only [List.any_eq_true, Bool.and_eq_true, sameHash_iff, List.mem_map]
  constructor
  · rintro ⟨y, hy, e, -⟩; exact ⟨y, hy, e.symm⟩
  · rintro ⟨y, hy, e⟩; exact ⟨y, hy, e.symm, pyEq_of_hash x y e.symm⟩

theorem pySetFrom_spec (xs : List Meter) : ∀ acc : List Meter, (acc.map Meter.hashKey).Nodup →
    ((pySetFrom acc xs).map Meter.hashKey).Nodup ∧
    (∀ k, k ∈ (pySetFrom acc xs).map Meter.hashKey ↔ k ∈ acc.map Meter.hashKey ∨ k ∈ xs.map Meter.hashKey) ∧
    (∀ m ∈ pySetFrom acc xs, m ∈ acc ∨ m ∈ xs) ∧ acc <+: pySetFrom acc xs := by
  induction xs with
  | nil => intro acc h; simp [pySetFrom, h]
  | cons x xs ih =>
    intro acc hn
    unfold pySetFrom
    split
    · rename_i hf
      rw [found_iff] at hf
      obtain ⟨h1, h2, h3, h4⟩ := ih acc hn
      refine ⟨h1, fun k => ?_, fun m hm => ?_, h4⟩
      · rw [h2, List.map_cons, List.mem_cons]
        constructor
        · rintro (h | h) <;> simp [h]
        · rintro (h | rfl | h)
          · exact Or.inl h
          · exact Or.inl hf
          · exact Or.inr h
      · rcases h3 m hm with h | h <;> simp [h]
    · rename_i hf
      rw [found_iff] at hf
      have hn' : ((acc ++ [x]).map Meter.hashKey).Nodup := by
        rw [List.map_append, List.nodup_append]
        refine ⟨hn, by simp, ?_⟩
        intro a ha b hb e
        simp only [List.map_cons, List.map_nil, List.mem_singleton] at hb
        subst hb; subst e
        exact hf ha
      obtain ⟨h1, h2, h3, h4⟩ := ih (acc ++ [x]) hn'
      refine ⟨h1, fun k => ?_, fun m hm => ?_, (List.prefix_append acc [x]).trans h4⟩
      · rw [h2]; simp only [List.map_append, List.map_cons, List.map_nil, List.mem_append, List.mem_cons]; tauto
      · rcases h3 m hm with h | h
        · rcases List.mem_append.1 h with h | h
          · exact Or.inl h
          · rw [List.mem_singleton] at h; simp [h]
        · simp [h]

end Nilmtk
