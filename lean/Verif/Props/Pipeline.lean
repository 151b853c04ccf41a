import Verif.Model.Pipeline
import Verif.Props.Node
import Mathlib.Data.List.Basic
/-!
C130: the dry run of a pipeline of nodes.
-/
namespace Nilmtk

/-! ### Specification -/

/-- What is at a path: nothing, a plain value (`some (some a)`), or a dictionary (`some none`). -/
def shapeAt (v : Val) (p : List String) : Option (Option Atom) :=
  match v.at? p with
  | none => none
  | some (.atom a) => some (some a)
  | some (.dict _) => some none

/-- Nowhere has one a dictionary where the other has a plain value. -/
def SameKinds (v w : Val) : Prop := ∀ p x y, shapeAt v p = some x → shapeAt w p = some y → (x = none ↔ y = none)

/-- Something is at the path. -/
def HasPath (d : Dict) (p : List String) : Prop := shapeAt (.dict d) p ≠ none

/-- The metadata of the meter and the postconditions of the nodes fit together. -/
def FitTogether (meter : Dict) (nodes : List NodeClass) : Prop :=
  ∀ d ∈ meter :: nodes.map NodeClass.postconditions, ∀ e ∈ meter :: nodes.map NodeClass.postconditions, SameKinds (.dict d) (.dict e)

/-- The value at a path is that of the meter if it has one, or else that of the first node that has one, seen from the meter. -/
def expectedAt (meter : Dict) (nodes : List NodeClass) (p : List String) : Option (Option Atom) :=
  ((meter :: (nodes.map NodeClass.postconditions).reverse).map (fun d => shapeAt (.dict d) p)).foldr Option.or none

/-- All requirements are that there is any value. -/
def AnyOnly (req : Dict) : Prop := ∀ p a, shapeAt (.dict req) p = some (some a) → a = .str "ANY VALUE"

/-! ### Lemmas -/

theorem shapeAt_nil (d : Dict) : shapeAt (.dict d) [] = some none := by unfold shapeAt; rw [at?_nil]

theorem shapeAt_cons (d : Dict) (k : String) (p : List String) : shapeAt (.dict d) (k :: p) = (d.get? k).bind (fun v => shapeAt v p) := by
  unfold shapeAt
  rw [at?_cons_dict]
  cases d.get? k <;> rfl

theorem shapeAt_atom (a : Atom) (p : List String) : shapeAt (.atom a) p = if p = [] then some (some a) else none := by
  cases p <;> rfl

theorem get?_set (k k' : String) (v : Val) : ∀ d : Dict, (d.set k v).get? k' = if k' = k then some v else d.get? k'
  | .nil => by rw [Dict.set, Dict.get?]; rfl
  | .cons c w rest => by
    rw [Dict.set]
    by_cases h : k = c
    · subst h
      rw [if_pos rfl, Dict.get?, Dict.get?]
      by_cases h2 : k' = k
      · rw [if_pos h2, if_pos h2]
      · rw [if_neg h2, if_neg h2, if_neg h2]
    · rw [if_neg h, Dict.get?, Dict.get?, get?_set k k' v rest]
      by_cases h2 : k' = c
      · have : k' ≠ k := fun e => h (e ▸ h2)
        rw [if_pos h2, if_neg this, if_pos h2]
      · rw [if_neg h2, if_neg h2]

theorem keys_set (k x : String) (v : Val) : ∀ d : Dict, x ∈ (d.set k v).keys → x = k ∨ x ∈ d.keys
  | .nil => by
    intro h
    rw [Dict.set, Dict.keys, Dict.keys] at h
    exact .inl (by simpa using h)
  | .cons c w rest => by
    intro h
    rw [Dict.set] at h
    by_cases e : k = c
    · rw [if_pos e, Dict.keys] at h
      rw [Dict.keys]
      exact .inr h
    · rw [if_neg e, Dict.keys] at h
      rw [Dict.keys]
      rcases List.mem_cons.1 h with h | h
      · exact .inr (h ▸ List.mem_cons_self)
      · rcases keys_set k x v rest h with h | h
        · exact .inl h
        · exact .inr (List.mem_cons_of_mem _ h)

theorem wf_set (k : String) (v : Val) (hv : v.WF) : ∀ d : Dict, d.WF → (d.set k v).WF
  | .nil => by
    intro _
    rw [Dict.set, Dict.WF, Dict.WF, Dict.keys]
    exact ⟨by simp, hv, trivial⟩
  | .cons c w rest => by
    intro h
    rw [Dict.WF] at h
    rw [Dict.set]
    by_cases e : k = c
    · rw [if_pos e, Dict.WF]
      exact ⟨h.1, hv, h.2.2⟩
    · rw [if_neg e, Dict.WF]
      refine ⟨?_, h.2.1, wf_set k v hv rest h.2.2⟩
      intro hc
      rcases keys_set k c v rest hc with h1 | h1
      · exact e h1.symm
      · exact h.1 h1

theorem wf_get? (k : String) (v : Val) : ∀ d : Dict, d.WF → d.get? k = some v → v.WF
  | .nil => by intro _ h; cases h
  | .cons c w rest => by
    intro h h1
    rw [Dict.WF] at h
    rw [Dict.get?] at h1
    by_cases e : k = c
    · rw [if_pos e] at h1
      cases h1
      exact h.2.1
    · rw [if_neg e] at h1
      exact wf_get? k v rest h.2.2 h1

/-- A step of the update: the key `k` gets the value `m`, which has the shape of both. -/
theorem merge_step (t rest : Dict) (k : String) (v m : Val) (hk : k ∉ rest.keys)
    (hm : ∀ p, shapeAt m p = (shapeAt v p).or ((t.get? k).bind (fun w => shapeAt w p)))
    (hs : SameKinds (.dict t) (.dict (.cons k v rest))) :
    SameKinds (.dict (t.set k m)) (.dict rest) ∧
    ∀ p, (shapeAt (.dict rest) p).or (shapeAt (.dict (t.set k m)) p) = (shapeAt (.dict (.cons k v rest)) p).or (shapeAt (.dict t) p) := by
  have hrest : rest.get? k = none := Dict.get?_none_of_not_mem k rest hk
  constructor
  · intro p x y hx hy
    cases p with
    | nil =>
      rw [shapeAt_nil] at hx hy
      cases hx; cases hy
      exact Iff.rfl
    | cons c p =>
      rw [shapeAt_cons, get?_set] at hx
      by_cases e : c = k
      · rw [e, shapeAt_cons, hrest] at hy
        cases hy
      · rw [if_neg e, ← shapeAt_cons] at hx
        apply hs (c :: p) x y hx
        rw [shapeAt_cons, Dict.get?, if_neg e, ← shapeAt_cons]
        exact hy
  · intro p
    cases p with
    | nil => rw [shapeAt_nil, shapeAt_nil, shapeAt_nil, shapeAt_nil]
    | cons c p =>
      rw [shapeAt_cons, shapeAt_cons, shapeAt_cons, shapeAt_cons, get?_set, Dict.get?]
      by_cases e : c = k
      · rw [if_pos e, if_pos e, e, hrest]
        exact hm p
      · rw [if_neg e, if_neg e]

mutual
theorem mergeVal_spec (clash : Val → Val → Except Err Val) : ∀ s : Val, s.WF → ∀ t : Val, t.WF → SameKinds t s →
    ∃ m, mergeVal clash t s = .ok m ∧ m.WF ∧ ∀ p, shapeAt m p = (shapeAt s p).or (shapeAt t p)
  | .atom a, _, t, ht, hs => by
    cases t with
    | atom b =>
      rw [mergeVal]
      refine ⟨_, rfl, by rw [Val.WF]; trivial, ?_⟩
      intro p
      rw [shapeAt_atom, shapeAt_atom]
      by_cases h : p = []
      · rw [if_pos h, if_pos h]; rfl
      · rw [if_neg h, if_neg h]; rfl
    | dict d =>
      have := (hs [] none (some a) (shapeAt_nil d) rfl).1 rfl
      cases this
  | .dict s, hw, t, ht, hs => by
    cases t with
    | atom b =>
      have := (hs [] (some b) none rfl (shapeAt_nil s)).2 rfl
      cases this
    | dict d =>
      rw [Val.WF] at hw ht
      obtain ⟨m, h1, h2, h3⟩ := mergeDict_spec clash s hw d ht hs
      rw [mergeVal]
      simp only [h1]
      exact ⟨_, rfl, by rw [Val.WF]; exact h2, h3⟩
theorem mergeDict_spec (clash : Val → Val → Except Err Val) : ∀ s : Dict, s.WF → ∀ t : Dict, t.WF → SameKinds (.dict t) (.dict s) →
    ∃ m, mergeDict clash t s = .ok m ∧ m.WF ∧ ∀ p, shapeAt (.dict m) p = (shapeAt (.dict s) p).or (shapeAt (.dict t) p)
  | .nil, _, t, ht, _ => by
    rw [mergeDict]
    refine ⟨t, rfl, ht, ?_⟩
    intro p
    cases p with
    | nil => rw [shapeAt_nil, shapeAt_nil]; rfl
    | cons k p => rw [shapeAt_cons .nil]; rfl
  | .cons k v rest, hw, t, ht, hs => by
    rw [Dict.WF] at hw
    rw [mergeDict]
    cases hg : t.get? k with
    | none =>
      obtain ⟨q1, q2⟩ := merge_step t rest k v v hw.1 (by intro p; rw [hg]; simp) hs
      obtain ⟨m, h1, h2, h3⟩ := mergeDict_spec clash rest hw.2.2 (t.set k v) (wf_set k v hw.2.1 t ht) q1
      exact ⟨m, h1, h2, fun p => by rw [h3, q2]⟩
    | some w =>
      have hvw : SameKinds w v := by
        intro p x y hx hy
        apply hs (k :: p) x y
        · rw [shapeAt_cons, hg]; exact hx
        · rw [shapeAt_cons, Dict.get?, if_pos rfl]; exact hy
      obtain ⟨n, n1, n2, n3⟩ := mergeVal_spec clash v hw.2.1 w (wf_get? k w t ht hg) hvw
      obtain ⟨q1, q2⟩ := merge_step t rest k v n hw.1 (by intro p; rw [hg]; exact n3 p) hs
      obtain ⟨m, h1, h2, h3⟩ := mergeDict_spec clash rest hw.2.2 (t.set k n) (wf_set k n n2 t ht) q1
      simp only [n1]
      exact ⟨m, h1, h2, fun p => by rw [h3, q2]⟩
end

theorem foldr_or_mem {α : Type} (l : List (Option α)) (x : α) (h : l.foldr Option.or none = some x) : some x ∈ l := by
  induction l with
  | nil => cases h
  | cons a l ih =>
    rw [List.foldr_cons] at h
    cases a with
    | none => exact List.mem_cons_of_mem _ (ih (by simpa using h))
    | some y =>
      simp at h
      rw [h]
      exact List.mem_cons_self

theorem foldr_or_isSome {α : Type} (l : List (Option α)) : l.foldr Option.or none ≠ none ↔ ∃ x ∈ l, x ≠ none := by
  induction l with
  | nil => simp
  | cons a l ih =>
    rw [List.foldr_cons]
    cases a with
    | none => simpa using ih
    | some y => simp

theorem foldr_or_append {α : Type} (l : List (Option α)) (x : Option α) :
    (l ++ [x]).foldr Option.or none = (l.foldr Option.or none).or x := by
  induction l with
  | nil => simp
  | cons a l ih => rw [List.cons_append, List.foldr_cons, List.foldr_cons, ih, Option.or_assoc]

theorem dryRun_spec (clash : Val → Val → Except Err Val) (meter : Dict) (hm : meter.WF) : ∀ nodes : List NodeClass,
    (∀ n ∈ nodes, n.postconditions.WF) → FitTogether meter nodes →
    ∃ state, dryRun clash meter nodes = .ok state ∧ state.WF ∧ ∀ p, shapeAt (.dict state) p = expectedAt meter nodes p := by
  intro nodes
  induction nodes with
  | nil =>
    intro _ _
    refine ⟨meter, rfl, hm, ?_⟩
    intro p
    unfold expectedAt
    simp
  | cons n nodes ih =>
    intro hw hf
    have hsub : ∀ d, d ∈ meter :: nodes.map NodeClass.postconditions → d ∈ meter :: (n :: nodes).map NodeClass.postconditions := by
      intro d hd
      rw [List.map_cons]
      rcases List.mem_cons.1 hd with h | h
      · exact h ▸ List.mem_cons_self
      · exact List.mem_cons_of_mem _ (List.mem_cons_of_mem _ h)
    obtain ⟨state, h1, h2, h3⟩ := ih (fun x hx => hw x (List.mem_cons_of_mem _ hx)) (fun d hd e he => hf d (hsub d hd) e (hsub e he))
    have hkinds : SameKinds (.dict n.postconditions) (.dict state) := by
      intro p x y hx hy
      rw [h3] at hy
      have hmem := foldr_or_mem _ _ hy
      obtain ⟨d, hd, hd2⟩ := List.mem_map.1 hmem
      have hd' : d ∈ meter :: nodes.map NodeClass.postconditions := by
        rcases List.mem_cons.1 hd with h | h
        · exact h ▸ List.mem_cons_self
        · exact List.mem_cons_of_mem _ (List.mem_reverse.1 h)
      exact hf n.postconditions (List.mem_cons_of_mem _ List.mem_cons_self) d (hsub d hd') p x y hx hd2
    obtain ⟨m, m1, m2, m3⟩ := mergeDict_spec clash state h2 n.postconditions (hw n List.mem_cons_self) hkinds
    refine ⟨m, ?_, m2, ?_⟩
    · rw [dryRun, h1]
      exact m1
    · intro p
      rw [m3, h3]
      unfold expectedAt
      have : meter :: ((n :: nodes).map NodeClass.postconditions).reverse =
          (meter :: (nodes.map NodeClass.postconditions).reverse) ++ [n.postconditions] := by
        rw [List.map_cons, List.reverse_cons, List.cons_append]
      rw [this, List.map_append, List.map_singleton, foldr_or_append]

/-- C130. The dry run of a pipeline succeeds if the metadata of the meter and the postconditions of the nodes fit together, and what it has at any path is
what the meter has there, or else what the first node has that has anything. So metadata of the meter are never hidden by a node. -/
theorem C130_dry_run (clash : Val → Val → Except Err Val) (meter : Dict) (hm : meter.WF) (nodes : List NodeClass)
    (hw : ∀ n ∈ nodes, n.postconditions.WF) (hf : FitTogether meter nodes) :
    ∃ state, dryRun clash meter nodes = .ok state ∧ (∀ p, shapeAt (.dict state) p = expectedAt meter nodes p) ∧
      ∀ p, HasPath meter p → shapeAt (.dict state) p = shapeAt (.dict meter) p := by
  obtain ⟨state, h1, -, h3⟩ := dryRun_spec clash meter hm nodes hw hf
  refine ⟨state, h1, h3, ?_⟩
  intro p hp
  rw [h3]
  unfold expectedAt HasPath at *
  rw [List.map_cons, List.foldr_cons]
  cases h : shapeAt (.dict meter) p with
  | none => exact absurd h hp
  | some x => simp

theorem dryRun_has (clash : Val → Val → Except Err Val) (meter : Dict) (hm : meter.WF) (nodes : List NodeClass)
    (hw : ∀ n ∈ nodes, n.postconditions.WF) (hf : FitTogether meter nodes) :
    ∃ state, dryRun clash meter nodes = .ok state ∧ ∀ p, HasPath state p ↔ HasPath meter p ∨ ∃ n ∈ nodes, HasPath n.postconditions p := by
  obtain ⟨state, h1, -, h3⟩ := dryRun_spec clash meter hm nodes hw hf
  refine ⟨state, h1, ?_⟩
  intro p
  unfold HasPath
  rw [h3]
  unfold expectedAt
  rw [foldr_or_isSome]
  simp only [List.map_cons, List.mem_cons, List.map_reverse, List.mem_reverse, List.map_map, List.mem_map, Function.comp_apply]
  constructor
  · rintro ⟨x, rfl | ⟨n, hn, rfl⟩, hx⟩
    · exact .inl hx
    · exact .inr ⟨n, hn, hx⟩
  · rintro (h | ⟨n, hn, h⟩)
    · exact ⟨_, .inl rfl, h⟩
    · exact ⟨_, .inr ⟨n, hn, rfl⟩, h⟩

theorem meets_any (state req : Dict) (h : AnyOnly req) : Meets (.dict state) (.dict req) ↔ ∀ p, HasPath req p → HasPath state p := by
  constructor
  · intro hm p hp
    unfold HasPath shapeAt at *
    cases hx : (Val.dict req).at? p with
    | none => rw [hx] at hp; exact absurd rfl hp
    | some x =>
      obtain ⟨y, hy, -⟩ := hm p x hx
      rw [hy]
      cases y <;> simp
  · intro hm p x hx
    have hp : HasPath req p := by
      unfold HasPath shapeAt
      rw [hx]
      cases x <;> simp
    have := hm p hp
    unfold HasPath shapeAt at this
    cases hy : (Val.dict state).at? p with
    | none => rw [hy] at this; exact absurd rfl this
    | some y =>
      refine ⟨y, rfl, ?_⟩
      intro a ha hne
      refine absurd (h p a ?_) hne
      unfold shapeAt
      rw [hx, ha]

/-- C130. The checks of a pipeline whose nodes ask for any value pass if and only if whatever a node asks for is in the metadata of the meter or in the
postconditions of a node before it. -/
theorem C130_checks_pass (clash : Val → Val → Except Err Val) (meter : Dict) (hm : meter.WF) (nodes : List NodeClass)
    (hw : ∀ n ∈ nodes, n.postconditions.WF ∧ n.requirements.WF ∧ AnyOnly n.requirements) (hf : FitTogether meter nodes) :
    pipelineChecks clash meter nodes = .ok () ↔
      ∀ later n before, nodes = later ++ n :: before → ∀ p, HasPath n.requirements p →
        HasPath meter p ∨ ∃ b ∈ before, HasPath b.postconditions p := by
  induction nodes with
  | nil =>
    refine ⟨?_, fun _ => rfl⟩
    intro _ later n before h
    cases later <;> cases h
  | cons n nodes ih =>
    have hsub : ∀ d, d ∈ meter :: nodes.map NodeClass.postconditions → d ∈ meter :: (n :: nodes).map NodeClass.postconditions := by
      intro d hd
      rw [List.map_cons]
      rcases List.mem_cons.1 hd with h | h
      · exact h ▸ List.mem_cons_self
      · exact List.mem_cons_of_mem _ (List.mem_cons_of_mem _ h)
    have hf' : FitTogether meter nodes := fun d hd e he => hf d (hsub d hd) e (hsub e he)
    have hw' : ∀ x ∈ nodes, x.postconditions.WF ∧ x.requirements.WF ∧ AnyOnly x.requirements := fun x hx => hw x (List.mem_cons_of_mem _ hx)
    obtain ⟨state, s1, s2⟩ := dryRun_has clash meter hm nodes (fun x hx => (hw' x hx).1) hf'
    obtain ⟨-, n2, n3⟩ := hw n List.mem_cons_self
    have hreq : checkRequirements state n.requirements = .ok () ↔
        ∀ p, HasPath n.requirements p → HasPath meter p ∨ ∃ b ∈ nodes, HasPath b.postconditions p := by
      rw [(C40_check_requirements state n.requirements n2).1, meets_any _ _ n3]
      exact forall_congr' fun p => by rw [s2]
    have hall : (∀ later x before, n :: nodes = later ++ x :: before → ∀ p, HasPath x.requirements p →
          HasPath meter p ∨ ∃ b ∈ before, HasPath b.postconditions p) ↔
        (∀ p, HasPath n.requirements p → HasPath meter p ∨ ∃ b ∈ nodes, HasPath b.postconditions p) ∧
        (∀ later x before, nodes = later ++ x :: before → ∀ p, HasPath x.requirements p →
          HasPath meter p ∨ ∃ b ∈ before, HasPath b.postconditions p) := by
      constructor
      · intro h
        exact ⟨h [] n nodes rfl, fun later x before e => h (n :: later) x before (by rw [e]; rfl)⟩
      · rintro ⟨h1, h2⟩ later x before e
        cases later with
        | nil => cases e; exact h1
        | cons y later =>
          rw [List.cons_append] at e
          injection e with e1 e2
          exact h2 later x before e2
    rw [hall, ← hreq, ← ih hw' hf', pipelineChecks, s1]
    simp only
    cases hc : checkRequirements state n.requirements with
    | error e => simp
    | ok u => simp

/-- C130. A node that can follow some nodes can follow them with further nodes among them: what was met stays met. -/
theorem C130_more_nodes (clash : Val → Val → Except Err Val) (meter : Dict) (hm : meter.WF) (n : NodeClass) (before more : List NodeClass)
    (hsub : ∀ b ∈ before, b ∈ more) (hn : n.requirements.WF) (hany : AnyOnly n.requirements) (hw : ∀ x ∈ more, x.postconditions.WF)
    (hf : FitTogether meter more) (state state' : Dict) (hs : dryRun clash meter before = .ok state) (hs' : dryRun clash meter more = .ok state')
    (hc : checkRequirements state n.requirements = .ok ()) : checkRequirements state' n.requirements = .ok () := by
  have hf0 : FitTogether meter before := by
    have : ∀ d, d ∈ meter :: before.map NodeClass.postconditions → d ∈ meter :: more.map NodeClass.postconditions := by
      intro d hd
      rcases List.mem_cons.1 hd with h | h
      · exact h ▸ List.mem_cons_self
      · obtain ⟨b, hb, rfl⟩ := List.mem_map.1 h
        exact List.mem_cons_of_mem _ (List.mem_map.2 ⟨b, hsub b hb, rfl⟩)
    exact fun d hd e he => hf d (this d hd) e (this e he)
  obtain ⟨a, a1, a2⟩ := dryRun_has clash meter hm before (fun x hx => hw x (hsub x hx)) hf0
  obtain ⟨b, b1, b2⟩ := dryRun_has clash meter hm more hw hf
  rw [hs] at a1
  rw [hs'] at b1
  cases a1
  cases b1
  rw [(C40_check_requirements _ _ hn).1, meets_any _ _ hany] at hc ⊢
  intro p hp
  rw [b2]
  rcases (a2 p).1 (hc p hp) with h | ⟨x, hx, h⟩
  · exact .inl h
  · exact .inr ⟨x, hsub x hx, h⟩

/-! ### The nodes of the repository -/

theorem anyValue_only (v : Val) (h : v = anyValue) (p : List String) (a : Atom) (hp : shapeAt v p = some (some a)) : a = .str "ANY VALUE" := by
  subst h
  unfold anyValue at hp
  rw [shapeAt_atom] at hp
  by_cases e : p = []
  · rw [if_pos e] at hp
    cases hp
    rfl
  · rw [if_neg e] at hp
    cases hp

theorem anyOnly_nil : AnyOnly .nil := by
  intro p a h
  cases p with
  | nil => rw [shapeAt_nil] at h; cases h
  | cons k p => rw [shapeAt_cons] at h; cases h

theorem anyOnly_cons (k : String) (v : Val) (rest : Dict) (hv : ∀ p a, shapeAt v p = some (some a) → a = .str "ANY VALUE") (hr : AnyOnly rest) :
    AnyOnly (.cons k v rest) := by
  intro p a h
  cases p with
  | nil => rw [shapeAt_nil] at h; cases h
  | cons c p =>
    rw [shapeAt_cons, Dict.get?] at h
    by_cases e : c = k
    · rw [if_pos e] at h
      exact hv p a h
    · rw [if_neg e, ← shapeAt_cons] at h
      exact hr (c :: p) a h

theorem anyOnly_totalEnergy : AnyOnly totalEnergyNode.requirements :=
  anyOnly_cons _ _ _ (anyOnly_cons _ _ _ (anyValue_only _ rfl) anyOnly_nil)
    (anyOnly_cons _ _ _ (anyOnly_cons _ _ _ (anyValue_only _ rfl) anyOnly_nil) anyOnly_nil)

theorem hasPath_totalEnergy (state : Dict) : (∀ p, HasPath totalEnergyNode.requirements p → HasPath state p) ↔
    HasPath state ["device", "max_sample_period"] ∧ HasPath state ["preprocessing_applied", "clip"] := by
  have up : ∀ k c, HasPath state [k, c] → HasPath state [k] := by
    intro k c h
    unfold HasPath at *
    rw [shapeAt_cons] at *
    cases hg : state.get? k with
    | none => rw [hg] at h; exact absurd rfl h
    | some v => cases v <;> simp [shapeAt, at?_nil]
  constructor
  · intro h
    refine ⟨h _ ?_, h _ ?_⟩ <;> · unfold HasPath; decide
  · rintro ⟨h1, h2⟩ p hp
    have hroot : HasPath state [] := by unfold HasPath; rw [shapeAt_nil]; simp
    unfold HasPath at hp
    match p, hp with
    | [], _ => exact hroot
    | k :: q, hp =>
      rw [shapeAt_cons] at hp
      simp only [totalEnergyNode, Dict.one, Dict.get?] at hp
      by_cases e : k = "device"
      · subst e
        rw [if_pos rfl] at hp
        match q, hp with
        | [], _ => exact up _ _ h1
        | c :: r, hp =>
          simp only [Option.bind_some, shapeAt_cons, Dict.get?] at hp
          by_cases e2 : c = "max_sample_period"
          · subst e2
            rw [if_pos rfl] at hp
            simp only [Option.bind_some, anyValue, shapeAt_atom] at hp
            by_cases e3 : r = []
            · subst e3; exact h1
            · rw [if_neg e3] at hp; exact absurd rfl hp
          · rw [if_neg e2] at hp; exact absurd rfl hp
      · rw [if_neg e] at hp
        by_cases e1 : k = "preprocessing_applied"
        · subst e1
          rw [if_pos rfl] at hp
          match q, hp with
          | [], _ => exact up _ _ h2
          | c :: r, hp =>
            simp only [Option.bind_some, shapeAt_cons, Dict.get?] at hp
            by_cases e2 : c = "clip"
            · subst e2
              rw [if_pos rfl] at hp
              simp only [Option.bind_some, anyValue, shapeAt_atom] at hp
              by_cases e3 : r = []
              · subst e3; exact h2
              · rw [if_neg e3] at hp; exact absurd rfl hp
            · rw [if_neg e2] at hp; exact absurd rfl hp
        · rw [if_neg e1] at hp; exact absurd rfl hp

/-- C130. `TotalEnergy` after any nodes is accepted if and only if the metadata say how long a sample period may be, and clipping was done: by a node before
it, or as the metadata of the meter say. -/
theorem C130_total_energy (clash : Val → Val → Except Err Val) (meter : Dict) (hm : meter.WF) (before : List NodeClass)
    (hw : ∀ n ∈ before, n.postconditions.WF) (hf : FitTogether meter before) :
    ∃ state, dryRun clash meter before = .ok state ∧
      (checkRequirements state totalEnergyNode.requirements = .ok () ↔
        (HasPath meter ["device", "max_sample_period"] ∨ ∃ b ∈ before, HasPath b.postconditions ["device", "max_sample_period"]) ∧
        (HasPath meter ["preprocessing_applied", "clip"] ∨ ∃ b ∈ before, HasPath b.postconditions ["preprocessing_applied", "clip"])) := by
  obtain ⟨state, s1, s2⟩ := dryRun_has clash meter hm before hw hf
  refine ⟨state, s1, ?_⟩
  have hwf : totalEnergyNode.requirements.WF := by
    simp [totalEnergyNode, Dict.one, anyValue, Dict.WF, Val.WF, Dict.keys]
  rw [(C40_check_requirements state _ hwf).1, meets_any _ _ anyOnly_totalEnergy, hasPath_totalEnergy, s2, s2]

/-- C130. If something a node asks for is missing, and the metadata of the meter and the postconditions before it have no plain value where it asks for a
dictionary, running it raises `UnsatisfiedRequirementsError`. -/
theorem C130_refused (clash : Val → Val → Except Err Val) (meter : Dict) (hm : meter.WF) (n : NodeClass) (before : List NodeClass)
    (hw : ∀ x ∈ before, x.postconditions.WF) (hf : FitTogether meter before) (hn : n.requirements.WF) (hany : AnyOnly n.requirements)
    (hd : ∀ d ∈ meter :: before.map NodeClass.postconditions, ∀ p a, shapeAt (.dict n.requirements) p = some none → shapeAt (.dict d) p ≠ some (some a))
    (hmiss : ∃ p, HasPath n.requirements p ∧ ¬ HasPath meter p ∧ ∀ b ∈ before, ¬ HasPath b.postconditions p) :
    pipelineChecks clash meter (n :: before) = .error .unsatisfiedRequirements := by
  obtain ⟨state, s1, -, s3⟩ := dryRun_spec clash meter hm before hw hf
  obtain ⟨state', t1, t2⟩ := dryRun_has clash meter hm before hw hf
  rw [s1] at t1
  cases t1
  have hc : checkRequirements state n.requirements = .error .unsatisfiedRequirements := by
    rw [(C40_check_requirements state n.requirements hn).2.2]
    constructor
    · rw [meets_any _ _ hany]
      intro h
      obtain ⟨p, p1, p2, p3⟩ := hmiss
      rcases (t2 p).1 (h p p1) with h1 | ⟨b, hb, h1⟩
      · exact p2 h1
      · exact p3 b hb h1
    · rintro ⟨p, k, x, d, a, h1, h2⟩
      have r1 : shapeAt (.dict n.requirements) p = some none := by unfold shapeAt; rw [h1]
      have r2 : shapeAt (.dict state) p = some (some a) := by unfold shapeAt; rw [h2]
      rw [s3] at r2
      obtain ⟨e, he, he2⟩ := List.mem_map.1 (foldr_or_mem _ _ r2)
      refine hd e ?_ p a r1 he2
      rcases List.mem_cons.1 he with h | h
      · exact h ▸ List.mem_cons_self
      · exact List.mem_cons_of_mem _ (List.mem_reverse.1 h)
  rw [pipelineChecks, s1]
  simp only [hc]

theorem hasPath_single (k c : String) (state : Dict) : (∀ p, HasPath (.one k (.dict (.one c anyValue))) p → HasPath state p) ↔ HasPath state [k, c] := by
  constructor
  · intro h
    refine h _ ?_
    unfold HasPath
    simp [shapeAt_cons, Dict.one, Dict.get?, anyValue, shapeAt_atom]
  · intro h1 p hp
    unfold HasPath at hp
    match p, hp with
    | [], _ => unfold HasPath; rw [shapeAt_nil]; simp
    | x :: q, hp =>
      rw [shapeAt_cons] at hp
      simp only [Dict.one, Dict.get?] at hp
      by_cases e : x = k
      · subst e
        rw [if_pos rfl] at hp
        match q, hp with
        | [], _ =>
          unfold HasPath at *
          rw [shapeAt_cons] at *
          cases hg : state.get? x with
          | none => rw [hg] at h1; exact absurd rfl h1
          | some v => cases v <;> simp [shapeAt, at?_nil]
        | y :: r, hp =>
          simp only [Option.bind_some, shapeAt_cons, Dict.get?] at hp
          by_cases e2 : y = c
          · subst e2
            rw [if_pos rfl] at hp
            simp only [Option.bind_some, anyValue, shapeAt_atom] at hp
            by_cases e3 : r = []
            · subst e3; exact h1
            · rw [if_neg e3] at hp; exact absurd rfl hp
          · rw [if_neg e2] at hp; exact absurd rfl hp
      · rw [if_neg e] at hp; exact absurd rfl hp

theorem check_single (k c : String) (state : Dict) :
    checkRequirements state (.one k (.dict (.one c anyValue))) = .ok () ↔ HasPath state [k, c] := by
  have hwf : (Dict.one k (.dict (.one c anyValue))).WF := by simp [Dict.one, anyValue, Dict.WF, Val.WF, Dict.keys]
  have hany : AnyOnly (Dict.one k (.dict (.one c anyValue))) :=
    anyOnly_cons _ _ _ (anyOnly_cons _ _ _ (anyValue_only _ rfl) anyOnly_nil) anyOnly_nil
  rw [(C40_check_requirements state _ hwf).1, meets_any _ _ hany, hasPath_single]

/-- C130. The other nodes of the repository, run on a meter: `Clip` needs the measurements, `GoodSections` the maximum sample period and `DropoutRate` the
sample period of the device, and nothing else. -/
theorem C130_on_meter (clash : Val → Val → Except Err Val) (meter : Dict) :
    (pipelineChecks clash meter [clipNode] = .ok () ↔ HasPath meter ["device", "measurements"]) ∧
    (pipelineChecks clash meter [goodSectionsNode] = .ok () ↔ HasPath meter ["device", "max_sample_period"]) ∧
    (pipelineChecks clash meter [dropoutRateNode] = .ok () ↔ HasPath meter ["device", "sample_period"]) := by
  have key : ∀ n : NodeClass, pipelineChecks clash meter [n] = .ok () ↔ checkRequirements meter n.requirements = .ok () := by
    intro n
    rw [pipelineChecks, dryRun]
    simp only
    cases checkRequirements meter n.requirements with
    | error e => simp
    | ok u => simp [pipelineChecks]
  rw [key, key, key]
  exact ⟨check_single _ _ _, check_single _ _ _, check_single _ _ _⟩

/-- C130. The energy of a meter, with `Clip` before `TotalEnergy`: accepted if and only if the device has measurements and a maximum sample period. -/
theorem C130_clip_then_energy (clash : Val → Val → Except Err Val) (meter : Dict) (hm : meter.WF) (hf : FitTogether meter [clipNode]) :
    pipelineChecks clash meter [totalEnergyNode, clipNode] = .ok () ↔
      HasPath meter ["device", "max_sample_period"] ∧ HasPath meter ["device", "measurements"] := by
  have hclip : clipNode.postconditions.WF := by simp [clipNode, Dict.one, Dict.WF, Val.WF, Dict.keys]
  obtain ⟨state, s1, s2⟩ := C130_total_energy clash meter hm [clipNode] (by simpa using hclip) hf
  have e1 : ¬ HasPath clipNode.postconditions ["device", "max_sample_period"] := by unfold HasPath; decide
  have e2 : HasPath clipNode.postconditions ["preprocessing_applied", "clip"] := by unfold HasPath; decide
  simp only [List.mem_singleton, exists_eq_left, e1, e2, or_false, or_true, and_true] at s2
  rw [← s2, ← (C130_on_meter clash meter).1]
  conv_lhs => rw [pipelineChecks, s1]
  simp only
  cases checkRequirements state totalEnergyNode.requirements with
  | error e => simp
  | ok u => simp

/-! ### Examples -/

theorem sameKinds_refl (v : Val) : SameKinds v v := by
  intro p x y hx hy
  rw [hx] at hy
  cases hy
  exact Iff.rfl

theorem sameKinds_of_disjoint (d e : Dict) (h : ∀ k, d.get? k = none ∨ e.get? k = none) : SameKinds (.dict d) (.dict e) := by
  intro p x y hx hy
  cases p with
  | nil =>
    rw [shapeAt_nil] at hx hy
    cases hx; cases hy
    exact Iff.rfl
  | cons k p =>
    rw [shapeAt_cons] at hx hy
    rcases h k with h | h
    · rw [h] at hx; cases hx
    · rw [h] at hy; cases hy

/-- Metadata of a meter with its device. -/
def demoMeter : Dict :=
  .one "device" (.dict (.cons "measurements" (.atom (.other 7)) (.one "max_sample_period" (.atom (.other 10)))))

theorem get?_one (k c : String) (v : Val) (h : c ≠ k) : (Dict.one k v).get? c = none := by
  rw [Dict.one, Dict.get?, if_neg h]; rfl

theorem disjoint_one (k c : String) (v w : Val) (h : k ≠ c) (x : String) : (Dict.one k v).get? x = none ∨ (Dict.one c w).get? x = none := by
  by_cases e : x = k
  · exact .inr (get?_one c x w (fun e2 => h (e ▸ e2)))
  · exact .inl (get?_one k x v e)

theorem demo_fits : FitTogether demoMeter [totalEnergyNode, clipNode] := by
  intro d hd e he
  simp only [List.map_cons, List.map_nil, List.mem_cons, List.not_mem_nil, or_false] at hd he
  rcases hd with rfl | rfl | rfl <;> rcases he with rfl | rfl | rfl <;>
    first
    | exact sameKinds_refl _
    | exact sameKinds_of_disjoint _ _ (disjoint_one _ _ _ _ (by decide))

theorem demo_fits_clip : FitTogether demoMeter [clipNode] := by
  intro d hd e he
  apply demo_fits d _ e _ <;> simp_all <;> tauto

/-- `Clip` and then `TotalEnergy` are accepted: the hypotheses of `C130_dry_run`, `C130_checks_pass`, `C130_total_energy` are met. -/
example (clash : Val → Val → Except Err Val) : demoMeter.WF ∧ (∀ n ∈ [totalEnergyNode, clipNode], n.postconditions.WF ∧ n.requirements.WF) ∧
    FitTogether demoMeter [totalEnergyNode, clipNode] ∧ AnyOnly totalEnergyNode.requirements ∧ AnyOnly clipNode.requirements ∧
    pipelineChecks clash demoMeter [totalEnergyNode, clipNode] = .ok () := by
  refine ⟨by simp [demoMeter, Dict.one, Dict.WF, Val.WF, Dict.keys], ?_, demo_fits, anyOnly_totalEnergy,
    anyOnly_cons _ _ _ (anyOnly_cons _ _ _ (anyValue_only _ rfl) anyOnly_nil) anyOnly_nil, rfl⟩
  intro n hn
  simp only [List.mem_cons, List.not_mem_nil, or_false] at hn
  rcases hn with rfl | rfl <;> simp [totalEnergyNode, clipNode, anyValue, Dict.one, Dict.WF, Val.WF, Dict.keys]

/-- `TotalEnergy` without `Clip` is refused: `C130_refused` applies. -/
example (clash : Val → Val → Except Err Val) : pipelineChecks clash demoMeter [totalEnergyNode] = .error .unsatisfiedRequirements ∧
    demoMeter.get? "device" ≠ none := by
  refine ⟨?_, by simp [demoMeter, Dict.one, Dict.get?]⟩
  refine C130_refused clash demoMeter (by simp [demoMeter, Dict.one, Dict.WF, Val.WF, Dict.keys]) totalEnergyNode [] (by simp) ?_
    (by simp [totalEnergyNode, anyValue, Dict.one, Dict.WF, Val.WF, Dict.keys]) anyOnly_totalEnergy ?_
    ⟨["preprocessing_applied", "clip"], by unfold HasPath; decide, by unfold HasPath; decide, by simp⟩
  · intro d hd e he
    simp only [List.map_nil, List.mem_singleton] at hd he
    rw [hd, he]
    exact sameKinds_refl _
  · intro d hd p a hp hq
    simp only [List.map_nil, List.mem_singleton] at hd
    subst hd
    match p, hp, hq with
    | [], _, hq => rw [shapeAt_nil] at hq; cases hq
    | [k], _, hq =>
      rw [shapeAt_cons] at hq
      simp only [demoMeter, Dict.one, Dict.get?] at hq
      split at hq
      · rw [Option.bind_some, shapeAt_nil] at hq; cases hq
      · cases hq
    | k :: c :: r, hp, _ =>
      simp only [totalEnergyNode, Dict.one, shapeAt_cons, Dict.get?, anyValue] at hp
      split at hp
      · simp only [Option.bind_some, shapeAt_cons, Dict.get?] at hp
        split at hp
        · simp only [Option.bind_some, shapeAt_atom] at hp
          split at hp <;> cases hp
        · cases hp
      · split at hp
        · simp only [Option.bind_some, shapeAt_cons, Dict.get?] at hp
          split at hp
          · simp only [Option.bind_some, shapeAt_atom] at hp
            split at hp <;> cases hp
          · cases hp
        · cases hp

/-- `C130_more_nodes`: `Clip` needs the same before and after another node. -/
example (clash : Val → Val → Except Err Val) : ∃ state state', dryRun clash demoMeter [] = .ok state ∧ dryRun clash demoMeter [clipNode] = .ok state' ∧
    FitTogether demoMeter [clipNode] ∧ checkRequirements state clipNode.requirements = .ok () := ⟨_, _, rfl, rfl, demo_fits_clip, rfl⟩

/-- `C130_clip_then_energy` on that meter. -/
example (clash : Val → Val → Except Err Val) : pipelineChecks clash demoMeter [totalEnergyNode, clipNode] = .ok () :=
  (C130_clip_then_energy clash demoMeter (by simp [demoMeter, Dict.one, Dict.WF, Val.WF, Dict.keys]) demo_fits_clip).2
    ⟨by unfold HasPath; decide, by unfold HasPath; decide⟩

end Nilmtk
