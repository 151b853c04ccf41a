import Verif.Model.Node
import Mathlib.Tactic.ByContra
/-!
C40: requirements of processing nodes.
-/
namespace Nilmtk

/-- The value at a path of keys. -/
def Val.at? : Val → List String → Option Val
  | v, [] => some v
  | .atom _, _ :: _ => none
  | .dict d, k :: p =>
    match d.get? k with
    | none => none
    | some v => v.at? p

/-- The keys of a dictionary. -/
def Dict.keys : Dict → List String
  | .nil => []
  | .cons k _ rest => k :: rest.keys

mutual
/-- Keys are distinct at every level, as in any Python dictionary. -/
def Val.WF : Val → Prop
  | .atom _ => True
  | .dict d => d.WF
/-- Keys are distinct at every level, as in any Python dictionary. -/
def Dict.WF : Dict → Prop
  | .nil => True
  | .cons k v rest => k ∉ rest.keys ∧ v.WF ∧ rest.WF
end

theorem Dict.get?_none_of_not_mem (k : String) (d : Dict) (h : k ∉ d.keys) : d.get? k = none := by
  match d with
  | .nil => rfl
  | .cons k' v rest =>
    rw [Dict.keys, List.mem_cons, not_or] at h
    rw [Dict.get?, if_neg h.1]
    exact Dict.get?_none_of_not_mem k rest h.2

/-- The requirement `r` is met by the value `v`: wherever `r` has a value, so has `v`, and where `r` asks for a
particular atom, `v` has it. -/
def Meets (v r : Val) : Prop :=
  ∀ p x, r.at? p = some x → ∃ y, v.at? p = some y ∧ ∀ a, x = .atom a → a ≠ .str "ANY VALUE" → y = .atom a

/-- Somewhere, `v` has a plain value where `r` has a non-empty dictionary. -/
def Clash (v r : Val) : Prop :=
  ∃ p k x d a, r.at? p = some (.dict (.cons k x d)) ∧ v.at? p = some (.atom a)

theorem at?_nil (v : Val) : v.at? [] = some v := by cases v <;> rfl

theorem at?_cons_dict (d : Dict) (k : String) (p : List String) :
    (Val.dict d).at? (k :: p) = (d.get? k).bind (fun v => v.at? p) := by
  rw [Val.at?]
  cases d.get? k <;> rfl

theorem at?_atom (a : Atom) (k : String) (p : List String) : (Val.atom a).at? (k :: p) = none := rfl

theorem atomViolated_iff (a : Atom) (c : Val) : atomViolated a c = true ↔ a ≠ .str "ANY VALUE" ∧ c ≠ .atom a := by
  unfold atomViolated
  cases c with
  | atom b =>
    simp only [Bool.and_eq_true, decide_eq_true_eq]
    constructor
    · rintro ⟨h1, h2⟩; exact ⟨h1, fun h => h2 (by injection h)⟩
    · rintro ⟨h1, h2⟩; exact ⟨h1, fun h => h2 (by rw [h])⟩
  | dict d => simp

/-- What happens at the key `k` with the requirement `x`. -/
theorem meets_cons (st : Dict) (k : String) (x : Val) (rest : Dict) (hk : k ∉ rest.keys) :
    Meets (.dict st) (.dict (.cons k x rest)) ↔
      (∃ c, st.get? k = some c ∧ Meets c x) ∧ Meets (.dict st) (.dict rest) := by
  constructor
  · intro h
    refine ⟨?_, ?_⟩
    · obtain ⟨y, hy, _⟩ := h [k] x (by rw [at?_cons_dict, Dict.get?, if_pos rfl]; exact at?_nil x)
      rw [at?_cons_dict] at hy
      cases hc : st.get? k with
      | none => rw [hc] at hy; cases hy
      | some c =>
        refine ⟨c, rfl, ?_⟩
        intro p z hz
        obtain ⟨w, hw, hw'⟩ := h (k :: p) z (by rw [at?_cons_dict, Dict.get?, if_pos rfl]; exact hz)
        rw [at?_cons_dict, hc] at hw
        exact ⟨w, hw, hw'⟩
    · intro p z hz
      cases p with
      | nil =>
        rw [at?_nil] at hz
        cases hz
        exact ⟨_, at?_nil _, fun a ha => by cases ha⟩
      | cons k' p =>
        rw [at?_cons_dict] at hz
        have hne : k' ≠ k := by
          rintro rfl
          rw [Dict.get?_none_of_not_mem _ _ hk] at hz
          cases hz
        obtain ⟨w, hw, hw'⟩ := h (k' :: p) z (by rw [at?_cons_dict, Dict.get?, if_neg hne]; exact hz)
        exact ⟨w, hw, hw'⟩
  · rintro ⟨⟨c, hc, hm⟩, hr⟩
    intro p z hz
    cases p with
    | nil =>
      rw [at?_nil] at hz
      cases hz
      exact ⟨_, at?_nil _, fun a ha => by cases ha⟩
    | cons k' p =>
      rw [at?_cons_dict, Dict.get?] at hz
      by_cases hkk : k' = k
      · subst hkk
        rw [if_pos rfl] at hz
        obtain ⟨w, hw, hw'⟩ := hm p z hz
        exact ⟨w, by rw [at?_cons_dict, hc]; exact hw, hw'⟩
      · rw [if_neg hkk] at hz
        exact hr (k' :: p) z (by rw [at?_cons_dict]; exact hz)

theorem clash_cons (st : Dict) (k : String) (x : Val) (rest : Dict) (hk : k ∉ rest.keys) :
    Clash (.dict st) (.dict (.cons k x rest)) ↔
      (∃ c, st.get? k = some c ∧ Clash c x) ∨ Clash (.dict st) (.dict rest) := by
  constructor
  · rintro ⟨p, k', y, d, a, h1, h2⟩
    cases p with
    | nil => rw [at?_nil] at h2; cases h2
    | cons k₁ p =>
      rw [at?_cons_dict, Dict.get?] at h1
      by_cases hkk : k₁ = k
      · subst hkk
        rw [if_pos rfl] at h1
        rw [at?_cons_dict] at h2
        cases hc : st.get? k₁ with
        | none => rw [hc] at h2; cases h2
        | some c =>
          rw [hc] at h2
          exact Or.inl ⟨c, rfl, p, k', y, d, a, h1, h2⟩
      · rw [if_neg hkk] at h1
        exact Or.inr ⟨k₁ :: p, k', y, d, a, by rw [at?_cons_dict]; exact h1, h2⟩
  · rintro (⟨c, hc, p, k', y, d, a, h1, h2⟩ | ⟨p, k', y, d, a, h1, h2⟩)
    · exact ⟨k :: p, k', y, d, a, by rw [at?_cons_dict, Dict.get?, if_pos rfl]; exact h1,
        by rw [at?_cons_dict, hc]; exact h2⟩
    · cases p with
      | nil => rw [at?_nil] at h2; cases h2
      | cons k₁ p =>
        have hne : k₁ ≠ k := by
          rintro rfl
          rw [at?_cons_dict, Dict.get?_none_of_not_mem _ _ hk] at h1
          cases h1
        exact ⟨k₁ :: p, k', y, d, a, by rw [at?_cons_dict, Dict.get?, if_neg hne, ← at?_cons_dict]; exact h1, h2⟩

theorem map_ok {α β : Type} {f : α → β} {x : Except Err α} {y : β} : x.map f = .ok y ↔ ∃ a, x = .ok a ∧ f a = y := by
  cases x with
  | error e => simp [Except.map]
  | ok a => simp [Except.map]

theorem map_error {α β : Type} {f : α → β} {x : Except Err α} {e : Err} : x.map f = .error e ↔ x = .error e := by
  cases x with
  | error e' => simp [Except.map]
  | ok a => simp [Except.map]

mutual
theorem checkVal_spec (key : String) (c : Val) : ∀ x : Val, x.WF →
    (checkVal key c x = .ok [] ↔ Meets c x) ∧ (checkVal key c x = .error .typeError ↔ Clash c x) ∧
    (∀ e, checkVal key c x = .error e → e = .typeError)
  | .atom a, _ => by
    refine ⟨?_, ?_, ?_⟩
    · rw [checkVal]
      have hm : Meets c (.atom a) ↔ ¬ (atomViolated a c = true) := by
        rw [atomViolated_iff]
        constructor
        · intro h ⟨h1, h2⟩
          obtain ⟨y, hy, hy'⟩ := h [] _ (at?_nil _)
          rw [at?_nil] at hy
          cases hy
          exact h2 (hy' a rfl h1)
        · intro h p x hx
          cases p with
          | nil =>
            rw [at?_nil] at hx
            cases hx
            refine ⟨c, at?_nil c, ?_⟩
            intro b hb hb'
            cases hb
            by_contra hc
            exact h ⟨hb', hc⟩
          | cons k p => cases hx
      rw [hm]
      by_cases hv : atomViolated a c = true
      · simp [hv]
      · simp [hv]
    · rw [checkVal]
      constructor
      · intro h; cases h
      · rintro ⟨p, k, y, d, b, h1, h2⟩
        cases p with
        | nil => rw [at?_nil] at h1; cases h1
        | cons k p => cases h1
    · intro e h; rw [checkVal] at h; cases h
  | .dict r, h => by
    rw [checkVal]
    rw [Val.WF] at h
    exact unsat_spec c r h
theorem unsat_spec (st : Val) : ∀ r : Dict, r.WF →
    (unsatisfiedRequirements st r = .ok [] ↔ Meets st (.dict r)) ∧
    (unsatisfiedRequirements st r = .error .typeError ↔ Clash st (.dict r)) ∧
    (∀ e, unsatisfiedRequirements st r = .error e → e = .typeError)
  | .nil, _ => by
    rw [unsatisfiedRequirements]
    refine ⟨⟨?_, fun _ => rfl⟩, ⟨fun h => (by cases h), ?_⟩, fun e h => (by cases h)⟩
    · intro _ p x hx
      cases p with
      | nil => rw [at?_nil] at hx; cases hx; exact ⟨st, at?_nil st, fun a ha => by cases ha⟩
      | cons k p => rw [at?_cons_dict] at hx; cases hx
    · rintro ⟨p, k, y, d, b, h1, h2⟩
      cases p with
      | nil => rw [at?_nil] at h1; cases h1
      | cons k p => rw [at?_cons_dict] at h1; cases h1
  | .cons key x rest, h => by
    rw [Dict.WF] at h
    obtain ⟨hk, hx, hr⟩ := h
    rw [unsatisfiedRequirements]
    cases st with
    | atom a =>
      simp only [Val.getItem]
      refine ⟨⟨fun h => (by cases h), ?_⟩, ⟨fun _ => ?_, fun _ => trivial⟩, ?_⟩
      · intro h
        obtain ⟨y, hy, _⟩ := h [key] x (by rw [at?_cons_dict, Dict.get?, if_pos rfl]; exact at?_nil x)
        cases hy
      · exact ⟨[], key, x, rest, a, at?_nil _, at?_nil _⟩
      · intro e h; cases h; rfl
    | dict st =>
      obtain ⟨r1, r2, r3⟩ := unsat_spec (.dict st) rest hr
      rw [meets_cons _ _ _ _ hk, clash_cons _ _ _ _ hk]
      simp only [Val.getItem]
      cases hc : st.get? key with
      | none =>
        simp only [map_ok, map_error]
        refine ⟨⟨?_, ?_⟩, ?_, r3⟩
        · rintro ⟨a, _, ha⟩; cases ha
        · rintro ⟨⟨c, hc', _⟩, _⟩; cases hc'
        · rw [r2]
          constructor
          · exact Or.inr
          · rintro (⟨c, hc', _⟩ | h)
            · cases hc'
            · exact h
      | some c =>
        obtain ⟨c1, c2, c3⟩ := checkVal_spec key c x hx
        simp only [Option.some.injEq, exists_eq_left']
        cases hv : checkVal key c x with
        | error e =>
          have := c3 e hv
          subst this
          rw [hv] at c1 c2
          simp only [reduceCtorEq, false_iff, true_iff] at c1 c2
          simp only [reduceCtorEq, false_iff, true_iff, Except.error.injEq, forall_eq', not_and]
          exact ⟨fun h => absurd h c1, Or.inl c2, trivial⟩
        | ok l =>
          rw [hv] at c1 c2
          simp only [Except.ok.injEq, reduceCtorEq, false_iff] at c1 c2
          simp only [map_ok, map_error]
          refine ⟨?_, ?_, r3⟩
          · rw [← c1, ← r1]
            constructor
            · rintro ⟨l', h1, h2⟩
              obtain ⟨rfl, rfl⟩ := List.append_eq_nil_iff.1 h2
              exact ⟨rfl, h1⟩
            · rintro ⟨rfl, h⟩
              exact ⟨[], h, rfl⟩
          · rw [r2]
            constructor
            · exact Or.inr
            · rintro (h | h)
              · exact absurd h c2
              · exact h
end

/-- C40. No requirement is reported as unsatisfied exactly when the metadata meet the requirements at every depth. -/
theorem C40_satisfied_iff (state req : Dict) (hreq : req.WF) :
    findUnsatisfiedRequirements state req = .ok [] ↔ Meets (.dict state) (.dict req) :=
  (unsat_spec (.dict state) req hreq).1

/-- C40. A node's check passes exactly when the metadata meet the requirements; it fails with `TypeError` exactly when
the metadata have a plain value where a non-empty group of requirements is asked for; and it fails with
`UnsatisfiedRequirementsError` in every other case. -/
theorem C40_check_requirements (state req : Dict) (hreq : req.WF) :
    (checkRequirements state req = .ok () ↔ Meets (.dict state) (.dict req)) ∧
    (checkRequirements state req = .error .typeError ↔ Clash (.dict state) (.dict req)) ∧
    (checkRequirements state req = .error .unsatisfiedRequirements ↔
      ¬ Meets (.dict state) (.dict req) ∧ ¬ Clash (.dict state) (.dict req)) := by
  obtain ⟨h1, h2, h3⟩ := unsat_spec (.dict state) req hreq
  unfold checkRequirements findUnsatisfiedRequirements
  cases hu : unsatisfiedRequirements (.dict state) req with
  | error e =>
    have := h3 e hu
    subst this
    rw [hu] at h1 h2
    simp only [reduceCtorEq, false_iff, true_iff] at h1 h2
    simp [h1, h2]
  | ok l =>
    rw [hu] at h1 h2
    simp only [Except.ok.injEq, reduceCtorEq, false_iff] at h1 h2
    cases l with
    | nil =>
      simp only [true_iff] at h1
      simp [h1, h2]
    | cons m l =>
      simp only [reduceCtorEq, false_iff] at h1
      simp [h1, h2]

mutual
theorem checkVal_msgs (key : String) (c : Val) : ∀ (x : Val) (l : List Unsat), x.WF → checkVal key c x = .ok l →
    ∀ m, m ∈ l ↔
      (∃ a, x = .atom a ∧ a ≠ .str "ANY VALUE" ∧ c ≠ .atom a ∧ m = .wrong key a c) ∨
      (∃ p k y, x.at? (p ++ [k]) = some y ∧ c.at? (p ++ [k]) = none ∧ (c.at? p).isSome ∧ m = .missing k y) ∨
      (∃ p k a y, x.at? (p ++ [k]) = some (.atom a) ∧ a ≠ .str "ANY VALUE" ∧ c.at? (p ++ [k]) = some y ∧ y ≠ .atom a ∧
        m = .wrong k a y)
  | .atom a, l, _, h => by
    rw [checkVal] at h
    have hno : ∀ (p : List String) (k : String), (Val.atom a).at? (p ++ [k]) = none := by
      intro p k; cases p <;> rfl
    cases h
    intro m
    simp only [hno, reduceCtorEq, false_and, exists_false, or_false, Val.atom.injEq]
    constructor
    · intro hm
      split at hm
      · rename_i hv
        rw [atomViolated_iff] at hv
        exact ⟨a, rfl, hv.1, hv.2, by simpa using hm⟩
      · cases hm
    · rintro ⟨b, rfl, h1, h2, rfl⟩
      rw [if_pos ((atomViolated_iff _ _).2 ⟨h1, h2⟩)]
      exact List.mem_singleton.2 rfl
  | .dict r, l, hwf, h => by
    rw [checkVal] at h
    rw [Val.WF] at hwf
    intro m
    rw [unsat_msgs c r l hwf h m]
    simp
theorem unsat_msgs (st : Val) : ∀ (r : Dict) (l : List Unsat), r.WF → unsatisfiedRequirements st r = .ok l →
    ∀ m, m ∈ l ↔
      (∃ p k y, (Val.dict r).at? (p ++ [k]) = some y ∧ st.at? (p ++ [k]) = none ∧ (st.at? p).isSome ∧ m = .missing k y) ∨
      (∃ p k a y, (Val.dict r).at? (p ++ [k]) = some (.atom a) ∧ a ≠ .str "ANY VALUE" ∧ st.at? (p ++ [k]) = some y ∧
        y ≠ .atom a ∧ m = .wrong k a y)
  | .nil, l, _, h => by
    rw [unsatisfiedRequirements] at h
    cases h
    have hno : ∀ (p : List String) (k : String), (Val.dict .nil).at? (p ++ [k]) = none := by
      intro p k
      cases p with
      | nil => rfl
      | cons a p => rfl
    intro m
    simp [hno]
  | .cons key x rest, l, hwf, h => by
    rw [Dict.WF] at hwf
    obtain ⟨hk, hx, hr⟩ := hwf
    rw [unsatisfiedRequirements] at h
    cases st with
    | atom a => cases h
    | dict st =>
      simp only [Val.getItem] at h
      intro m
      -- paths into the requirements start with `key` or lie in the rest
      have hat : ∀ (p : List String) (k : String) y, (Val.dict (.cons key x rest)).at? (p ++ [k]) = some y ↔
          (∃ q, p ++ [k] = key :: q ∧ x.at? q = some y) ∨ (Val.dict rest).at? (p ++ [k]) = some y := by
        intro p k y
        have key' : ∀ (k₁ : String) (q : List String), (Val.dict (.cons key x rest)).at? (k₁ :: q) = some y ↔
            (∃ q', k₁ :: q = key :: q' ∧ x.at? q' = some y) ∨ (Val.dict rest).at? (k₁ :: q) = some y := by
          intro k₁ q
          rw [at?_cons_dict, at?_cons_dict, Dict.get?]
          by_cases hkk : k₁ = key
          · subst hkk
            rw [if_pos rfl, Dict.get?_none_of_not_mem _ _ hk]
            simp
          · rw [if_neg hkk]
            simp [hkk]
        cases p with
        | nil => exact key' k []
        | cons k₁ p => exact key' k₁ (p ++ [k])
      cases hc : st.get? key with
      | none =>
        rw [hc] at h
        simp only [map_ok] at h
        obtain ⟨l', h1, rfl⟩ := h
        have ih := unsat_msgs (.dict st) rest l' hr h1 m
        rw [List.mem_cons, ih]
        constructor
        · rintro (rfl | ⟨p, k, y, h1, h2⟩ | ⟨p, k, a, y, h1, h2⟩)
          · refine Or.inl ⟨[], key, x, (hat [] key x).2 (Or.inl ⟨[], rfl, at?_nil x⟩), ?_, by rw [at?_nil]; rfl, rfl⟩
            rw [List.nil_append, at?_cons_dict, hc]; rfl
          · exact Or.inl ⟨p, k, y, (hat p k y).2 (Or.inr h1), h2⟩
          · exact Or.inr ⟨p, k, a, y, (hat p k _).2 (Or.inr h1), h2⟩
        · rintro (⟨p, k, y, h1, h2, h3, h4⟩ | ⟨p, k, a, y, h1, h2, h3, h4, h5⟩)
          · rcases (hat p k y).1 h1 with ⟨q, hq, hxq⟩ | h1
            · cases p with
              | nil =>
                rw [List.nil_append] at hq
                cases hq
                rw [at?_nil] at hxq
                cases hxq
                exact Or.inl h4
              | cons k₁ p =>
                rw [List.cons_append] at hq
                cases hq
                rw [at?_cons_dict, hc] at h3
                cases h3
            · exact Or.inr (Or.inl ⟨p, k, y, h1, h2, h3, h4⟩)
          · rcases (hat p k _).1 h1 with ⟨q, hq, hxq⟩ | h1
            · rw [hq, at?_cons_dict, hc] at h3
              cases h3
            · exact Or.inr (Or.inr ⟨p, k, a, y, h1, h2, h3, h4, h5⟩)
      | some c =>
        rw [hc] at h
        simp only at h
        cases hv : checkVal key c x with
        | error e => rw [hv] at h; cases h
        | ok l₁ =>
          rw [hv] at h
          simp only [map_ok] at h
          obtain ⟨l', h1, rfl⟩ := h
          have ih := unsat_msgs (.dict st) rest l' hr h1 m
          have ih₁ := checkVal_msgs key c x l₁ hx hv m
          have hstat : ∀ q, (Val.dict st).at? (key :: q) = c.at? q := by
            intro q; rw [at?_cons_dict, hc]; rfl
          rw [List.mem_append, ih, ih₁]
          constructor
          · rintro ((⟨a, rfl, h2, h3, rfl⟩ | ⟨p, k, y, h1, h2, h3, rfl⟩ | ⟨p, k, a, y, h1, h2, h3, h4, rfl⟩) |
              ⟨p, k, y, h1, h2⟩ | ⟨p, k, a, y, h1, h2⟩)
            · exact Or.inr ⟨[], key, a, c, (hat [] key _).2 (Or.inl ⟨[], rfl, rfl⟩), h2,
                by rw [List.nil_append, hstat, at?_nil], h3, rfl⟩
            · exact Or.inl ⟨key :: p, k, y, (hat _ k _).2 (Or.inl ⟨p ++ [k], rfl, h1⟩),
                by rw [List.cons_append, hstat]; exact h2, by rw [hstat]; exact h3, rfl⟩
            · exact Or.inr ⟨key :: p, k, a, y, (hat _ k _).2 (Or.inl ⟨p ++ [k], rfl, h1⟩), h2,
                by rw [List.cons_append, hstat]; exact h3, h4, rfl⟩
            · exact Or.inl ⟨p, k, y, (hat p k y).2 (Or.inr h1), h2⟩
            · exact Or.inr ⟨p, k, a, y, (hat p k _).2 (Or.inr h1), h2⟩
          · rintro (⟨p, k, y, h1, h2, h3, h4⟩ | ⟨p, k, a, y, h1, h2, h3, h4, h5⟩)
            · rcases (hat p k y).1 h1 with ⟨q, hq, hxq⟩ | h1
              · cases p with
                | nil =>
                  rw [List.nil_append] at hq h2
                  rw [hq, hstat] at h2
                  cases hq
                  rw [at?_nil] at h2
                  cases h2
                | cons k₁ p =>
                  rw [List.cons_append] at hq h2
                  cases hq
                  rw [hstat] at h2 h3
                  exact Or.inl (Or.inr (Or.inl ⟨p, k, y, hxq, h2, h3, h4⟩))
              · exact Or.inr (Or.inl ⟨p, k, y, h1, h2, h3, h4⟩)
            · rcases (hat p k _).1 h1 with ⟨q, hq, hxq⟩ | h1
              · cases p with
                | nil =>
                  rw [List.nil_append] at hq h3
                  rw [hq, hstat] at h3
                  cases hq
                  rw [at?_nil] at hxq h3
                  cases hxq; cases h3
                  exact Or.inl (Or.inl ⟨a, rfl, h2, h4, h5⟩)
                | cons k₁ p =>
                  rw [List.cons_append] at hq h3
                  cases hq
                  rw [hstat] at h3
                  exact Or.inl (Or.inr (Or.inr ⟨p, k, a, y, hxq, h2, h3, h4, h5⟩))
              · exact Or.inr (Or.inr ⟨p, k, a, y, h1, h2, h3, h4, h5⟩)
end

/-- C40. The list names exactly the violations: the required keys that are absent although the group they belong to is
present, and the required atoms for which the metadata have something else. -/
theorem C40_messages (state req : Dict) (hreq : req.WF) (l : List Unsat)
    (h : findUnsatisfiedRequirements state req = .ok l) (m : Unsat) :
    m ∈ l ↔
      (∃ p k y, (Val.dict req).at? (p ++ [k]) = some y ∧ (Val.dict state).at? (p ++ [k]) = none ∧
        ((Val.dict state).at? p).isSome ∧ m = .missing k y) ∨
      (∃ p k a y, (Val.dict req).at? (p ++ [k]) = some (.atom a) ∧ a ≠ .str "ANY VALUE" ∧
        (Val.dict state).at? (p ++ [k]) = some y ∧ y ≠ .atom a ∧ m = .wrong k a y) :=
  unsat_msgs (.dict state) req l hreq h m

/-- The requirement of `GoodSections`, goodsections.py:19. -/
def goodSectionsReq : Dict :=
  .cons "device" (.dict (.cons "max_sample_period" (.atom (.str "ANY VALUE")) .nil)) .nil

example : goodSectionsReq.WF := by
  simp [goodSectionsReq, Dict.WF, Val.WF, Dict.keys]
example : findUnsatisfiedRequirements (.cons "device" (.dict (.cons "max_sample_period" (.atom (.other 6)) .nil)) .nil)
    goodSectionsReq = .ok [] := by rfl
example : checkRequirements (.cons "device" (.dict .nil) .nil) goodSectionsReq = .error .unsatisfiedRequirements := by
  rfl
example : checkRequirements (.cons "device" (.atom (.str "meter")) .nil) goodSectionsReq = .error .typeError := by rfl

end Nilmtk
