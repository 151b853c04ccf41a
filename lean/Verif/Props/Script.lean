import Verif.Model.Script
import Verif.Props.Activations
import Verif.Props.Experiment
/-!
C92: activations of a meter, and the activity script of a data set.
-/
namespace Nilmtk

/-! ### Specification -/

/-- The power above which an appliance is on: its own, else the nominal one, else that of its type, else 10 W. -/
inductive ThresholdOf : AAppl → Rat → Prop where
  | own (a : AAppl) (t : Rat) (h : a.own = some t) : ThresholdOf a t
  | nominal (a : AAppl) (t : Rat) (h : a.own = none) (h' : a.onPower = some t) : ThresholdOf a t
  | type (a : AAppl) (k : AType) (t : Rat) (h : a.own = none) (h' : a.onPower = none) (hk : a.kind = some k)
      (ht : k.threshold = some t) : ThresholdOf a t
  | default (a : AAppl) (k : AType) (h : a.own = none) (h' : a.onPower = none) (hk : a.kind = some k)
      (ht : k.threshold = none) : ThresholdOf a 10

/-- The sort brings a script into the order of time. -/
def SortsScripts (sort : ActScript → ActScript) : Prop :=
  ∀ l, (sort l).Perm l ∧ (sort l).Pairwise (fun x y => x.1 ≤ y.1)

/-- The activation begins at `s` and ends at `e`. -/
def Spans (a : PSeries) (s e : Int) : Prop := ∃ v w, a.head? = some (s, v) ∧ a.getLast? = some (e, w)

/-- The submeters of all buildings, with the number of the building. -/
def submetersOf (bs : List (Nat × List ScriptMeter)) : List (Nat × ScriptMeter) :=
  bs.flatMap (fun b => (b.2.filter (fun m => m.site = false)).map (fun m => (b.1, m)))

/-! ### Defaults -/

theorem onThreshold_iff (a : AAppl) (t : Rat) : a.onThreshold = .ok t ↔ ThresholdOf a t := by
  unfold AAppl.onThreshold defaultThreshold
  constructor
  · intro h
    split at h
    · rename_i u hu; cases h; exact .own a _ hu
    · rename_i h0
      split at h
      · rename_i u hu; cases h; exact .nominal a _ h0 hu
      · rename_i h1
        split at h
        · cases h
        · rename_i k hk
          cases h
          cases ht : k.threshold with
          | none => exact .default a k h0 h1 hk ht
          | some u => exact .type a k u h0 h1 hk ht
  · intro h
    cases h with
    | own _ h => rw [h]
    | nominal _ h h' => rw [h, h']
    | type k _ h h' hk ht => rw [h, h', hk]; simp [ht]
    | default k h h' hk ht => rw [h, h', hk]; simp [ht]

theorem minOfRats_spec (l : List Rat) (m : Rat) :
    minOfRats m l ∈ m :: l ∧ ∀ x ∈ m :: l, minOfRats m l ≤ x := by
  induction l generalizing m with
  | nil => simp [minOfRats]
  | cons y l ih =>
    rw [minOfRats]
    obtain ⟨h1, h2⟩ := ih (if y < m then y else m)
    split at h1 <;> rename_i hc
    · rw [if_pos hc] at h2 ⊢
      refine ⟨by simp only [List.mem_cons] at h1 ⊢; tauto, ?_⟩
      intro x hx
      have := h2 y List.mem_cons_self
      rcases List.mem_cons.1 hx with rfl | hx
      · exact this.trans hc.le
      · exact h2 x (by simpa using hx)
    · rw [if_neg hc] at h2 ⊢
      refine ⟨by simp only [List.mem_cons] at h1 ⊢; tauto, ?_⟩
      intro x hx
      have := h2 m List.mem_cons_self
      rcases List.mem_cons.1 hx with rfl | hx
      · exact this
      · rcases List.mem_cons.1 hx with rfl | hx
        · exact this.trans (not_lt.1 hc)
        · exact h2 x (List.mem_cons_of_mem _ hx)

theorem maxOfRats_spec (l : List Rat) (m : Rat) :
    maxOfRats m l ∈ m :: l ∧ ∀ x ∈ m :: l, x ≤ maxOfRats m l := by
  induction l generalizing m with
  | nil => simp [maxOfRats]
  | cons y l ih =>
    rw [maxOfRats]
    obtain ⟨h1, h2⟩ := ih (if m < y then y else m)
    split at h1 <;> rename_i hc
    · rw [if_pos hc] at h2 ⊢
      refine ⟨by simp only [List.mem_cons] at h1 ⊢; tauto, ?_⟩
      intro x hx
      have := h2 y List.mem_cons_self
      rcases List.mem_cons.1 hx with rfl | hx
      · exact hc.le.trans this
      · exact h2 x (by simpa using hx)
    · rw [if_neg hc] at h2 ⊢
      refine ⟨by simp only [List.mem_cons] at h1 ⊢; tauto, ?_⟩
      intro x hx
      have := h2 m List.mem_cons_self
      rcases List.mem_cons.1 hx with rfl | hx
      · exact this
      · rcases List.mem_cons.1 hx with rfl | hx
        · exact (not_lt.1 hc).trans this
        · exact h2 x (List.mem_cons_of_mem _ hx)

/-- C92. The threshold of a meter is the smallest of its appliances; 10 W if it has none. It raises if an appliance has no
threshold of its own and no recognised type. -/
theorem C92_threshold (as : List AAppl) (t : Rat) : meterThreshold as = .ok t ↔
    (as = [] ∧ t = 10) ∨ ((∃ a ∈ as, ThresholdOf a t) ∧ ∀ a ∈ as, ∃ u, ThresholdOf a u ∧ t ≤ u) := by
  unfold meterThreshold defaultThreshold
  cases as with
  | nil => simp [eq_comm]
  | cons a as =>
    simp only [reduceCtorEq, false_and, false_or]
    cases hm : mapE AAppl.onThreshold (a :: as) with
    | error e =>
      simp only [reduceCtorEq, false_iff]
      rintro ⟨_, h⟩
      obtain ⟨r, hr⟩ := mapE_total (f := AAppl.onThreshold) (l := a :: as)
        (fun x hx => by obtain ⟨u, hu, _⟩ := h x hx; exact ⟨u, (onThreshold_iff x u).2 hu⟩)
      rw [hm] at hr; cases hr
    | ok ts =>
      have h' := mapE_ok.1 hm
      cases h' with
      | cons h1 h2 =>
        rename_i t1 ts'
        simp only [Except.ok.injEq]
        have h' := mapE_ok.1 hm
        obtain ⟨s1, s2⟩ := minOfRats_spec ts' t1
        constructor
        · rintro rfl
          refine ⟨?_, ?_⟩
          · obtain ⟨i, hi, e⟩ := List.mem_iff_getElem.1 s1
            have hl := h'.length_eq
            refine ⟨(a :: as)[i]'(by omega), List.getElem_mem _, ?_⟩
            rw [← onThreshold_iff, ← e]
            exact List.forall₂_iff_get.1 h' |>.2 i (by omega) hi
          · intro x hx
            obtain ⟨i, hi, e⟩ := List.mem_iff_getElem.1 hx
            have hl := h'.length_eq
            refine ⟨(t1 :: ts')[i]'(by omega), ?_, s2 _ (List.getElem_mem _)⟩
            rw [← onThreshold_iff, ← e]
            exact List.forall₂_iff_get.1 h' |>.2 i hi (by omega)
        · rintro ⟨⟨x, hx, ht⟩, hall⟩
          apply le_antisymm
          · obtain ⟨i, hi, e⟩ := List.mem_iff_getElem.1 hx
            have hl := h'.length_eq
            have h3 := (List.forall₂_iff_get.1 h').2 i hi (by omega)
            simp only [List.get_eq_getElem, e] at h3
            rw [(onThreshold_iff x t).2 ht] at h3
            simp only [Except.ok.injEq] at h3
            rw [h3]
            exact s2 _ (List.getElem_mem _)
          · obtain ⟨i, hi, e⟩ := List.mem_iff_getElem.1 s1
            have hl := h'.length_eq
            have h3 := (List.forall₂_iff_get.1 h').2 i (by omega) hi
            simp only [List.get_eq_getElem, e] at h3
            obtain ⟨u, hu, hle⟩ := hall _ (List.getElem_mem (l := a :: as) (n := i) (by omega))
            rw [(onThreshold_iff _ u).2 hu] at h3
            simp only [Except.ok.injEq] at h3
            rw [← h3]; exact hle

theorem attrValues_ok {get : AType → Option Rat} {as : List AAppl} {acc vs : List Rat} :
    attrValues get as acc = .ok vs → (∀ a ∈ as, a.kind ≠ none) ∧
      ∀ v, v ∈ vs ↔ v ∈ acc ∨ ∃ a ∈ as, ∃ k, a.kind = some k ∧ get k = some v := by
  intro h
  induction as generalizing acc with
  | nil => cases h; simp
  | cons a as ih =>
    rw [attrValues] at h
    cases hk : a.kind with
    | none => rw [hk] at h; cases h
    | some k =>
      rw [hk] at h
      obtain ⟨h1, h2⟩ := ih h
      refine ⟨?_, ?_⟩
      · intro x hx
        rcases List.mem_cons.1 hx with rfl | hx
        · rw [hk]; simp
        · exact h1 x hx
      · intro v
        rw [h2]
        simp only [List.mem_append, Option.mem_toList, List.mem_cons]
        constructor
        · rintro ((h | h) | ⟨x, hx, h⟩)
          · exact Or.inl h
          · exact Or.inr ⟨a, Or.inl rfl, k, hk, h⟩
          · exact Or.inr ⟨x, Or.inr hx, h⟩
        · rintro (h | ⟨x, rfl | hx, k', hk', h⟩)
          · exact Or.inl (Or.inl h)
          · rw [hk] at hk'; cases hk'; exact Or.inl (Or.inr h)
          · exact Or.inr ⟨x, hx, k', hk', h⟩

theorem attrValues_total {get : AType → Option Rat} {as : List AAppl} (h : ∀ a ∈ as, a.kind ≠ none) (acc : List Rat) :
    ∃ vs, attrValues get as acc = .ok vs := by
  induction as generalizing acc with
  | nil => exact ⟨acc, rfl⟩
  | cons a as ih =>
    rw [attrValues]
    cases hk : a.kind with
    | none => exact absurd hk (h a List.mem_cons_self)
    | some k => exact ih (fun x hx => h x (List.mem_cons_of_mem _ hx)) _

/-- C92. The default of a duration is the largest that the types of the appliances give, 0 if none gives one; it raises if an
appliance has no recognised type. -/
theorem C92_duration (get : AType → Option Rat) (as : List AAppl) (d : Rat) : aggregateAttr get as = .ok d ↔
    (∀ a ∈ as, a.kind ≠ none) ∧
    ((d = 0 ∧ ∀ a ∈ as, ∀ k, a.kind = some k → get k = none) ∨
      ((∃ a ∈ as, ∃ k, a.kind = some k ∧ get k = some d) ∧
        ∀ a ∈ as, ∀ k, a.kind = some k → ∀ v, get k = some v → v ≤ d)) := by
  unfold aggregateAttr
  cases hv : attrValues get as [] with
  | error e =>
    simp only [reduceCtorEq, false_iff]
    rintro ⟨h, _⟩
    obtain ⟨vs, hvs⟩ := attrValues_total (get := get) h []
    rw [hv] at hvs; cases hvs
  | ok vs =>
    obtain ⟨h1, h2⟩ := attrValues_ok hv
    simp only [List.not_mem_nil, false_or] at h2
    cases vs with
    | nil =>
      simp only [Except.ok.injEq]
      have hnone : ∀ a ∈ as, ∀ k, a.kind = some k → get k = none := by
        intro a ha k hk
        cases hg : get k with
        | none => rfl
        | some v => have := (h2 v).2 ⟨a, ha, k, hk, hg⟩; cases this
      constructor
      · rintro rfl; exact ⟨h1, Or.inl ⟨rfl, hnone⟩⟩
      · rintro ⟨_, ⟨h, _⟩ | ⟨⟨a, ha, k, hk, hg⟩, _⟩⟩
        · exact h.symm
        · rw [hnone a ha k hk] at hg; cases hg
    | cons v vs =>
      simp only [Except.ok.injEq]
      obtain ⟨s1, s2⟩ := maxOfRats_spec vs v
      constructor
      · rintro rfl
        refine ⟨h1, Or.inr ⟨(h2 _).1 s1, ?_⟩⟩
        intro a ha k hk w hw
        exact s2 w ((h2 w).2 ⟨a, ha, k, hk, hw⟩)
      · rintro ⟨_, ⟨_, h⟩ | ⟨h, hall⟩⟩
        · obtain ⟨a, ha, k, hk, hg⟩ := (h2 v).1 List.mem_cons_self
          rw [h a ha k hk] at hg; cases hg
        · apply le_antisymm
          · obtain ⟨a, ha, k, hk, hg⟩ := (h2 _).1 s1
            exact hall a ha k hk _ hg
          · exact s2 d ((h2 d).2 h)

/-! ### Activations -/

theorem activationsLoop_ok {minOff minOn : Rat} {border : Nat} {threshold : Rat} {acc r : List PSeries}
    {chunks : List PSeries} : activationsLoop minOff minOn border threshold acc chunks = .ok r ↔
    ∃ parts, List.Forall₂ (fun c p => getActivations c minOff minOn border threshold = .ok p) chunks parts ∧
      r = acc ++ parts.flatten := by
  induction chunks generalizing acc with
  | nil =>
    simp only [activationsLoop, Except.ok.injEq, List.forall₂_nil_left_iff]
    constructor
    · rintro rfl; exact ⟨[], rfl, by simp⟩
    · rintro ⟨_, rfl, h⟩; simpa using h.symm
  | cons c chunks ih =>
    rw [activationsLoop]
    cases hg : getActivations c minOff minOn border threshold with
    | error e =>
      simp only [reduceCtorEq, false_iff]
      rintro ⟨_, h, _⟩
      cases h with
      | cons h _ => rw [hg] at h; cases h
    | ok new =>
      simp only
      rw [ih]
      constructor
      · rintro ⟨parts, h, rfl⟩
        exact ⟨new :: parts, .cons hg h, by simp⟩
      · rintro ⟨parts, h, rfl⟩
        cases h with
        | cons h h' =>
          rename_i p ps
          rw [hg] at h; cases h
          exact ⟨ps, h', by simp⟩

/-- The parameter, or the default if it is `None`. -/
def GivenOr (x : Option Rat) (default : Except Err Rat) (v : Rat) : Prop := x = some v ∨ (x = none ∧ default = .ok v)

theorem orDefault_iff (x : Option Rat) (default : Except Err Rat) (v : Rat) :
    orDefault x default = .ok v ↔ GivenOr x default v := by
  unfold orDefault GivenOr
  cases x <;> simp

/-- C92. The activations of a meter are those of its chunks, one after another, with the parameters given or their defaults. -/
theorem C92_activations (as : List AAppl) (p : ActParams) (chunks : Gen PSeries) (acts : List PSeries) :
    meterActivations as p chunks = .ok acts ↔
    chunks.err = none ∧ ∃ threshold minOff minOn parts, GivenOr p.threshold (meterThreshold as) threshold ∧
      GivenOr p.minOff (aggregateAttr AType.minOff as) minOff ∧ GivenOr p.minOn (aggregateAttr AType.minOn as) minOn ∧
      List.Forall₂ (fun c q => getActivations c minOff minOn p.border threshold = .ok q) chunks.out parts ∧
      acts = parts.flatten := by
  unfold meterActivations
  constructor
  · intro h
    split at h
    · cases h
    · rename_i t ht
      split at h
      · cases h
      · rename_i mo hmo
        split at h
        · cases h
        · rename_i mn hmn
          split at h
          · cases h
          · rename_i r hr
            split at h
            · cases h
            · rename_i hc
              cases h
              obtain ⟨parts, h1, h2⟩ := activationsLoop_ok.1 hr
              exact ⟨hc, t, mo, mn, parts, (orDefault_iff _ _ _).1 ht, (orDefault_iff _ _ _).1 hmo,
                (orDefault_iff _ _ _).1 hmn, h1, by simpa using h2⟩
  · rintro ⟨hc, t, mo, mn, parts, ht, hmo, hmn, h1, h2⟩
    rw [(orDefault_iff _ _ _).2 ht]
    simp only
    rw [(orDefault_iff _ _ _).2 hmo]
    simp only
    rw [(orDefault_iff _ _ _).2 hmn]
    simp only
    rw [activationsLoop_ok.2 ⟨parts, h1, rfl⟩, hc]
    simp [h2]

/-- C92. The only way `get_activations` fails is through the metadata or the loading of the data. -/
theorem C92_activations_total (as : List AAppl) (p : ActParams) (chunks : Gen PSeries) (threshold minOff minOn : Rat)
    (hc : chunks.err = none) (ht : GivenOr p.threshold (meterThreshold as) threshold)
    (hmo : GivenOr p.minOff (aggregateAttr AType.minOff as) minOff)
    (hmn : GivenOr p.minOn (aggregateAttr AType.minOn as) minOn) : ∃ acts, meterActivations as p chunks = .ok acts := by
  have : ∃ parts, List.Forall₂ (fun c q => getActivations c minOff minOn p.border threshold = .ok q) chunks.out parts := by
    obtain ⟨r, hr⟩ := mapE_total (f := fun c => getActivations c minOff minOn p.border threshold) (l := chunks.out)
      (fun c _ => by obtain ⟨_, _, h⟩ := C60_activations c minOff minOn p.border threshold; exact ⟨_, h⟩)
    exact ⟨r, mapE_ok.1 hr⟩
  obtain ⟨parts, hp⟩ := this
  exact ⟨parts.flatten, (C92_activations as p chunks _).2 ⟨hc, threshold, minOff, minOn, parts, ht, hmo, hmn, hp, rfl⟩⟩

theorem slice_spans {chunk : PSeries} (ht : chunk.Pairwise (fun x y => x.1 < y.1)) {lo hi : Nat} (h1 : lo + 1 < hi)
    (h2 : lo + 1 < chunk.length) : ∃ s e, Spans ((chunk.take hi).drop lo) s e ∧ s < e := by
  have hl : ((chunk.take hi).drop lo).length = min hi chunk.length - lo := by simp
  have hpos : 0 < ((chunk.take hi).drop lo).length := by omega
  have hlast : ((chunk.take hi).drop lo).length - 1 < ((chunk.take hi).drop lo).length := by omega
  generalize hL : (chunk.take hi).drop lo = L at *
  have hp : L.Pairwise (fun x y => x.1 < y.1) := by
    rw [← hL]
    exact (ht.sublist (List.take_sublist _ _)).sublist (List.drop_sublist _ _)
  refine ⟨(L[0]).1, (L[L.length - 1]).1, ⟨(L[0]).2, (L[L.length - 1]).2, ?_, ?_⟩, ?_⟩
  · rw [List.head?_eq_getElem?, List.getElem?_eq_getElem hpos]
  · rw [List.getLast?_eq_getElem?, List.getElem?_eq_getElem hlast]
  · exact List.pairwise_iff_getElem.1 hp 0 (L.length - 1) hpos hlast (by omega)

/-- C92. Every activation has at least two readings: it begins before it ends. -/
theorem C92_spans (as : List AAppl) (p : ActParams) (chunks : Gen PSeries) (acts : List PSeries)
    (ht : ∀ c ∈ chunks.out, c.Pairwise (fun x y => x.1 < y.1)) (h : meterActivations as p chunks = .ok acts) :
    ∀ a ∈ acts, ∃ s e, Spans a s e ∧ s < e := by
  obtain ⟨_, t, mo, mn, parts, _, _, _, hp, rfl⟩ := (C92_activations as p chunks acts).1 h
  intro a ha
  obtain ⟨part, hpart, ha⟩ := List.mem_flatten.1 ha
  obtain ⟨i, hi, e⟩ := List.mem_iff_getElem.1 hpart
  have hl := hp.length_eq
  have hg := (List.forall₂_iff_get.1 hp).2 i (by omega) hi
  simp only [List.get_eq_getElem, e] at hg
  obtain ⟨acts', h1, h2⟩ := C60_sound (chunks.out[i]'(by omega)) mo mn p.border t
  rw [hg] at h1; cases h1
  obtain ⟨_, x, y, hx, hx', hy, hy', hlt, _, rfl⟩ := h2 a ha
  have hxpos : 0 < x := by
    rcases Nat.eq_zero_or_pos x with rfl | hx0
    · exact absurd hx hx'.2
    · exact hx0
  have := hy.1
  exact slice_spans (ht _ (List.getElem_mem _)) (by omega) (by omega)

/-! ### Script of a meter -/

theorem startsEnds_spans {acts : List PSeries} {ss es : List Int}
    (h1 : List.Forall₂ (fun a s => ∃ v, a.head? = some (s, v)) acts ss)
    (h2 : List.Forall₂ (fun a e => ∃ v, a.getLast? = some (e, v)) acts es) : startsEnds acts = .ok (ss, es) := by
  induction h1 generalizing es with
  | nil => cases h2; rfl
  | cons h h1 ih =>
    cases h2 with
    | cons h' h2 =>
      obtain ⟨v, hv⟩ := h
      obtain ⟨w, hw⟩ := h'
      rw [startsEnds, hv, hw]
      simp only
      rw [ih h2]

/-- Starts and ends as a list of pairs. -/
theorem spans_split {acts : List PSeries} {ps : List (Int × Int)} (h : List.Forall₂ (fun a p => Spans a p.1 p.2) acts ps) :
    startsEnds acts = .ok (ps.map Prod.fst, ps.map Prod.snd) := by
  apply startsEnds_spans
  · rw [List.forall₂_map_right_iff]
    exact h.imp (fun a p hap => by obtain ⟨v, w, h1, h2⟩ := hap; exact ⟨v, h1⟩)
  · rw [List.forall₂_map_right_iff]
    exact h.imp (fun a p hap => by obtain ⟨v, w, h1, h2⟩ := hap; exact ⟨w, h2⟩)

theorem spans_exist {acts : List PSeries} (h : ∀ a ∈ acts, ∃ s e, Spans a s e ∧ s < e) :
    ∃ ps : List (Int × Int), List.Forall₂ (fun a p => Spans a p.1 p.2) acts ps ∧ ∀ p ∈ ps, p.1 < p.2 := by
  induction acts with
  | nil => exact ⟨[], .nil, by simp⟩
  | cons a acts ih =>
    obtain ⟨ps, h1, h2⟩ := ih (fun x hx => h x (List.mem_cons_of_mem _ hx))
    obtain ⟨s, e, hs, hlt⟩ := h a List.mem_cons_self
    refine ⟨(s, e) :: ps, .cons hs h1, ?_⟩
    intro p hp
    rcases List.mem_cons.1 hp with rfl | hp
    · exact hlt
    · exact h2 p hp

theorem count_le_pairs (ps : List (Int × Int)) (h : ∀ p ∈ ps, p.1 < p.2) (t : Int) :
    (ps.map Prod.snd).countP (fun x => decide (x ≤ t)) ≤ (ps.map Prod.fst).countP (fun x => decide (x ≤ t)) := by
  induction ps with
  | nil => simp
  | cons p ps ih =>
    have := ih (fun q hq => h q (List.mem_cons_of_mem _ hq))
    have hp := h p List.mem_cons_self
    simp only [List.map_cons, List.countP_cons]
    by_cases h2 : p.2 ≤ t
    · have h1 : p.1 ≤ t := by omega
      rw [if_pos (by simp [h2]), if_pos (by simp [h1])]; omega
    · simp only [h2, decide_false, Bool.false_eq_true, if_false]
      omega

/-- C92. The script of a meter holds, in the order of time, one start and one end for every activation, and at no instant have
more activations ended than begun. -/
theorem C92_script (sort : ActScript → ActScript) (hs : SortsScripts sort) (acts : List PSeries)
    (h : ∀ a ∈ acts, ∃ s e, Spans a s e ∧ s < e) :
    ∃ (ps : List (Int × Int)) (script : ActScript), scriptOf sort acts = .ok script ∧
      List.Forall₂ (fun a p => Spans a p.1 p.2) acts ps ∧
      script.Pairwise (fun x y => x.1 ≤ y.1) ∧
      script.Perm (ps.map (fun p => (p.1, true)) ++ ps.map (fun p => (p.2, false))) ∧
      script.countP (fun x => x.2) = acts.length ∧ script.countP (fun x => !x.2) = acts.length ∧
      ∀ t, script.countP (fun x => !x.2 && decide (x.1 ≤ t)) ≤ script.countP (fun x => x.2 && decide (x.1 ≤ t)) := by
  obtain ⟨ps, h1, h2⟩ := spans_exist h
  have he := spans_split h1
  have hl := h1.length_eq
  refine ⟨ps, sort (ps.map (fun p => (p.1, true)) ++ ps.map (fun p => (p.2, false))), ?_, h1, (hs _).2, (hs _).1, ?_, ?_, ?_⟩
  · unfold scriptOf
    rw [he]
    simp only [List.map_map]
    rfl
  · rw [(hs _).1.countP_eq]
    simp [List.countP_append, List.countP_map, Function.comp_def, hl]
  · rw [(hs _).1.countP_eq]
    simp [List.countP_append, List.countP_map, Function.comp_def, hl]
  · intro t
    rw [(hs _).1.countP_eq, (hs _).1.countP_eq]
    have := count_le_pairs ps h2 t
    rw [List.countP_map, List.countP_map] at this
    simpa [List.countP_append, List.countP_map, Function.comp_def] using this

/-- C92. When the activations follow one another without overlap, the script alternates: start, end, start, end, ... -/
theorem C92_alternates_partial (sort : ActScript → ActScript) (hs : SortsScripts sort) (acts : List PSeries)
    (h : ∀ a ∈ acts, ∃ s e, Spans a s e ∧ s < e)
    (hd : acts.Pairwise (fun a b => ∀ x ∈ a, ∀ y ∈ b, x.1 < y.1)) :
    ∃ ps : List (Int × Int), List.Forall₂ (fun a p => Spans a p.1 p.2) acts ps ∧
      scriptOf sort acts = .ok (ps.flatMap (fun p => [(p.1, true), (p.2, false)])) := by
  obtain ⟨ps, h1, h2⟩ := spans_exist h
  have he := spans_split h1
  refine ⟨ps, h1, ?_⟩
  unfold scriptOf
  rw [he]
  simp only [List.map_map, Except.ok.injEq]
  have hpp : ps.Pairwise (fun p q => p.2 < q.1) := by
    clear he h2 h
    induction h1 with
    | nil => exact .nil
    | cons hap h1 ih =>
      rename_i a p acts ps
      rw [List.pairwise_cons] at hd ⊢
      refine ⟨?_, ih hd.2⟩
      intro q hq
      obtain ⟨i, hi, e⟩ := List.mem_iff_getElem.1 hq
      have hl := h1.length_eq
      have hq' := (List.forall₂_iff_get.1 h1).2 i (by omega) hi
      simp only [List.get_eq_getElem, e] at hq'
      obtain ⟨v, w, _, hlast⟩ := hap
      obtain ⟨v', w', hfirst, _⟩ := hq'
      exact hd.1 _ (List.getElem_mem _) _ (List.mem_of_getLast? hlast) _ (List.mem_of_head? hfirst)
  have hstrict : (ps.flatMap (fun p => [(p.1, true), (p.2, false)])).Pairwise (fun x y : Int × Bool => x.1 < y.1) := by
    clear h1 he h hd
    induction ps with
    | nil => simp
    | cons p ps ih =>
      rw [List.pairwise_cons] at hpp
      rw [List.flatMap_cons, List.pairwise_append]
      refine ⟨?_, ih (fun q hq => h2 q (List.mem_cons_of_mem _ hq)) hpp.2, ?_⟩
      · simpa using h2 p List.mem_cons_self
      · intro x hx y hy
        obtain ⟨q, hq, hy⟩ := List.mem_flatMap.1 hy
        have a1 := hpp.1 q hq
        have a2 := h2 p List.mem_cons_self
        have a3 := h2 q (List.mem_cons_of_mem _ hq)
        simp only [List.mem_cons, List.not_mem_nil, or_false] at hx hy
        rcases hx with rfl | rfl <;> rcases hy with rfl | rfl <;> simp only <;> omega
  have hperm : (ps.flatMap (fun p => [(p.1, true), (p.2, false)])).Perm
      (ps.map ((fun t => (t, true)) ∘ Prod.fst) ++ ps.map ((fun t => (t, false)) ∘ Prod.snd)) := by
    clear h1 he h hd h2 hpp hstrict
    induction ps with
    | nil => simp
    | cons p ps ih =>
      rw [List.flatMap_cons, List.map_cons, List.map_cons, List.cons_append]
      refine List.Perm.cons _ ?_
      refine (List.Perm.cons _ ih).trans ?_
      exact List.perm_middle.symm
  refine List.Perm.eq_of_pairwise (le := fun x y : Int × Bool => x.1 ≤ y.1) ?_ (hs _).2 (hstrict.imp (fun h => le_of_lt h))
    ((hs _).1.trans hperm.symm)
  intro x y hx hy hxy hyx
  have hx' := ((hs _).1.trans hperm.symm).mem_iff.1 hx
  by_contra hne
  rcases List.pairwise_iff_getElem.1 hstrict with hst
  obtain ⟨i, hi, ei⟩ := List.mem_iff_getElem.1 hx'
  obtain ⟨j, hj, ej⟩ := List.mem_iff_getElem.1 hy
  rcases lt_trichotomy i j with hij | hij | hij
  · have := hst i j hi hj hij; rw [ei, ej] at this; omega
  · subst hij; exact hne (ei.symm.trans ej)
  · have := hst j i hj hi hij; rw [ei, ej] at this; omega

/-! ### The file -/

theorem split_digits {d1 d2 r1 r2 : List Char} (h1 : ∀ c ∈ d1, c.isDigit = true) (h2 : ∀ c ∈ d2, c.isDigit = true)
    (h : d1 ++ '/' :: r1 = d2 ++ '/' :: r2) : d1 = d2 ∧ r1 = r2 := by
  induction d1 generalizing d2 with
  | nil =>
    cases d2 with
    | nil => simpa using h
    | cons c d2 =>
      simp only [List.nil_append, List.cons_append, List.cons.injEq] at h
      have := h2 c List.mem_cons_self
      rw [← h.1] at this; exact absurd this (by decide)
  | cons c d1 ih =>
    cases d2 with
    | nil =>
      simp only [List.nil_append, List.cons_append, List.cons.injEq] at h
      have := h1 c List.mem_cons_self
      rw [h.1] at this; exact absurd this (by decide)
    | cons c' d2 =>
      simp only [List.cons_append, List.cons.injEq] at h
      obtain ⟨e1, e2⟩ := ih (fun x hx => h1 x (List.mem_cons_of_mem _ hx)) (fun x hx => h2 x (List.mem_cons_of_mem _ hx)) h.2
      exact ⟨by rw [h.1, e1], e2⟩

theorem underscored_inj {t t' : String} (h : '_' ∉ t.toList) (h' : '_' ∉ t'.toList)
    (e : (underscored t).toList = (underscored t').toList) : t = t' := by
  unfold underscored at e
  rw [String.toList_ofList, String.toList_ofList] at e
  rw [← String.toList_inj]
  generalize t.toList = l at *
  generalize t'.toList = l' at *
  induction l generalizing l' with
  | nil => cases l' with
    | nil => rfl
    | cons c l' => simp at e
  | cons c l ih =>
    cases l' with
    | nil => simp at e
    | cons c' l' =>
      simp only [List.map_cons, List.cons.injEq] at e
      simp only [List.mem_cons, not_or] at h h'
      have hc : c = c' := by
        have e1 := e.1
        split at e1 <;> split at e1
        · rename_i a b; rw [a, b]
        · exact absurd e1 h'.1
        · exact absurd e1.symm h.1
        · exact e1
      rw [hc, ih h.2 l' h'.2 e.2]

/-- C92. The key of a script tells building, type and number of the appliance, for types without underscores. -/
theorem C92_key_injective (b b' : Nat) (t t' : String) (i i' : Nat) (ht : '_' ∉ t.toList) (ht' : '_' ∉ t'.toList)
    (h : scriptKey b t i = scriptKey b' t' i') : b = b' ∧ t = t' ∧ i = i' := by
  have h' := congrArg String.toList h
  unfold scriptKey at h'
  simp only [String.toList_append] at h'
  have hu : "__".toList = ['_', '_'] := rfl
  have hsl : "/".toList = ['/'] := rfl
  rw [hu, hsl] at h'
  generalize "/building".toList = pre at h'
  have h2 : (pre ++ (toString b).toList ++ ['/'] ++ (underscored t).toList ++ ['_']) ++ '_' :: (toString i).toList =
      (pre ++ (toString b').toList ++ ['/'] ++ (underscored t').toList ++ ['_']) ++ '_' :: (toString i').toList := by
    simpa using h'
  obtain ⟨e1, e2⟩ := split_last (toString_digits i).1 (toString_digits i').1 h2
  have e3 := List.append_cancel_right e1
  have e4 : (toString b).toList ++ '/' :: (underscored t).toList = (toString b').toList ++ '/' :: (underscored t').toList := by
    have : pre ++ ((toString b).toList ++ '/' :: (underscored t).toList) =
        pre ++ ((toString b').toList ++ '/' :: (underscored t').toList) := by simpa using e3
    exact List.append_cancel_left this
  obtain ⟨e5, e6⟩ := split_digits (toString_digits b).1 (toString_digits b').1 e4
  exact ⟨toString_inj e5, underscored_inj ht ht' e6, toString_inj e2⟩

/-- What a submeter contributes to the file. -/
def Writes (sort : ActScript → ActScript) (j : Nat × ScriptMeter) (e : String × ActScript) : Prop :=
  ∃ t i acts, j.2.dominant = .ok (some (t, i)) ∧ j.2.activations = .ok acts ∧ e.1 = scriptKey j.1 t i ∧
    scriptOf sort acts = .ok e.2

/-- The entries one after another. -/
def putAll (store : List (String × ActScript)) (es : List (String × ActScript)) : List (String × ActScript) :=
  es.foldl (fun s e => dictSet s e.1 e.2) store

theorem scriptMeters_ok {sort : ActScript → ActScript} {b : Nat} {ms : List ScriptMeter} {store r : List (String × ActScript)} :
    scriptMeters sort b ms store = .ok r ↔
    ∃ es, List.Forall₂ (Writes sort) (ms.map (fun m => (b, m))) es ∧ r = putAll store es := by
  induction ms generalizing store with
  | nil =>
    simp only [scriptMeters, Except.ok.injEq, List.map_nil, List.forall₂_nil_left_iff]
    constructor
    · rintro rfl; exact ⟨[], rfl, rfl⟩
    · rintro ⟨_, rfl, h⟩; exact h.symm
  | cons m ms ih =>
    rw [scriptMeters, List.map_cons]
    constructor
    · intro h
      split at h
      · cases h
      · cases h
      · rename_i t i hd
        split at h
        · cases h
        · rename_i acts ha
          split at h
          · cases h
          · rename_i s hs
            obtain ⟨es, h1, h2⟩ := ih.1 h
            exact ⟨(scriptKey b t i, s) :: es, .cons ⟨t, i, acts, hd, ha, rfl, hs⟩ h1, h2⟩
    · rintro ⟨es, h, rfl⟩
      cases h with
      | cons h h' =>
        rename_i e es
        obtain ⟨t, i, acts, hd, ha, hk, hs⟩ := h
        simp only at hd ha hk
        rw [hd]
        simp only
        rw [ha]
        simp only
        rw [hs]
        simp only
        rw [← hk]
        exact ih.2 ⟨es, h', rfl⟩

theorem forall2_append_left {α β : Type} {R : α → β → Prop} {a b : List α} {l : List β} (h : List.Forall₂ R (a ++ b) l) :
    ∃ x y, List.Forall₂ R a x ∧ List.Forall₂ R b y ∧ l = x ++ y := by
  induction a generalizing l with
  | nil => exact ⟨[], l, .nil, h, rfl⟩
  | cons c a ih =>
    cases h with
    | cons h1 h2 =>
      obtain ⟨x, y, e1, e2, rfl⟩ := ih h2
      exact ⟨_ :: x, y, .cons h1 e1, e2, rfl⟩

theorem activityScript_ok {sort : ActScript → ActScript} {bs : List (Nat × List ScriptMeter)}
    {store r : List (String × ActScript)} : activityScript sort bs store = .ok r ↔
    ∃ es, List.Forall₂ (Writes sort) (submetersOf bs) es ∧ r = putAll store es := by
  induction bs generalizing store with
  | nil =>
    simp only [activityScript, Except.ok.injEq, submetersOf, List.flatMap_nil, List.forall₂_nil_left_iff]
    constructor
    · rintro rfl; exact ⟨[], rfl, rfl⟩
    · rintro ⟨_, rfl, h⟩; exact h.symm
  | cons b bs ih =>
    obtain ⟨n, ms⟩ := b
    have hsub : submetersOf ((n, ms) :: bs) =
        (ms.filter (fun m => !m.site)).map (fun m => (n, m)) ++ submetersOf bs := by
      unfold submetersOf
      rw [List.flatMap_cons]
      congr 2
      apply List.filter_congr
      intro m _
      cases m.site <;> rfl
    rw [activityScript, hsub]
    constructor
    · intro h
      split at h
      · cases h
      · rename_i s hs
        obtain ⟨es, h1, rfl⟩ := scriptMeters_ok.1 hs
        obtain ⟨es', h2, rfl⟩ := ih.1 h
        exact ⟨es ++ es', List.rel_append h1 h2, by simp [putAll, List.foldl_append]⟩
    · rintro ⟨es, h, rfl⟩
      obtain ⟨es1, es2, e1, e2, rfl⟩ := forall2_append_left h
      rw [scriptMeters_ok.2 ⟨_, e1, rfl⟩]
      simp only
      exact ih.2 ⟨_, e2, by simp [putAll, List.foldl_append]⟩

theorem putAll_keys (es store : List (String × ActScript)) (k : String) :
    k ∈ (putAll store es).map Prod.fst ↔ k ∈ store.map Prod.fst ∨ k ∈ es.map Prod.fst := by
  induction es generalizing store with
  | nil => simp [putAll]
  | cons e es ih =>
    have : putAll store (e :: es) = putAll (dictSet store e.1 e.2) es := rfl
    rw [this, ih, dictSet_keys, List.map_cons, List.mem_cons]
    tauto

theorem putAll_lookup_other (es store : List (String × ActScript)) (k : String) (h : k ∉ es.map Prod.fst) :
    (putAll store es).lookup k = store.lookup k := by
  induction es generalizing store with
  | nil => rfl
  | cons e es ih =>
    rw [List.map_cons, List.mem_cons, not_or] at h
    have : putAll store (e :: es) = putAll (dictSet store e.1 e.2) es := rfl
    rw [this, ih _ h.2, dictSet_lookup, if_neg h.1]

theorem putAll_lookup_last (es post store : List (String × ActScript)) (e : String × ActScript)
    (h : e.1 ∉ post.map Prod.fst) : (putAll store (es ++ e :: post)).lookup e.1 = some e.2 := by
  have : putAll store (es ++ e :: post) = putAll (dictSet (putAll store es) e.1 e.2) post := by
    simp [putAll, List.foldl_append]
  rw [this, putAll_lookup_other _ _ _ h, dictSet_lookup, if_pos rfl]

/-- C92. The file can be written exactly if every submeter has a dominant appliance and its activations can be computed. -/
theorem C92_file_total (sort : ActScript → ActScript) (bs : List (Nat × List ScriptMeter)) :
    (∃ store, activityScript sort bs [] = .ok store) ↔ ∀ j ∈ submetersOf bs, ∃ e, Writes sort j e := by
  constructor
  · rintro ⟨store, h⟩ j hj
    obtain ⟨es, h1, _⟩ := activityScript_ok.1 h
    obtain ⟨i, hi, e⟩ := List.mem_iff_getElem.1 hj
    have hl := h1.length_eq
    have := (List.forall₂_iff_get.1 h1).2 i hi (by omega)
    simp only [List.get_eq_getElem, e] at this
    exact ⟨_, this⟩
  · intro h
    have : ∃ es, List.Forall₂ (Writes sort) (submetersOf bs) es := by
      generalize submetersOf bs = js at h
      induction js with
      | nil => exact ⟨[], .nil⟩
      | cons j js ih =>
        obtain ⟨es, h1⟩ := ih (fun x hx => h x (List.mem_cons_of_mem _ hx))
        obtain ⟨e, he⟩ := h j List.mem_cons_self
        exact ⟨e :: es, .cons he h1⟩
    obtain ⟨es, h1⟩ := this
    exact ⟨_, activityScript_ok.2 ⟨es, h1, rfl⟩⟩

/-- C92. The file has exactly the keys of the submeters. -/
theorem C92_file_keys (sort : ActScript → ActScript) (bs : List (Nat × List ScriptMeter)) (store : List (String × ActScript))
    (h : activityScript sort bs [] = .ok store) (k : String) :
    k ∈ store.map Prod.fst ↔ ∃ b ms m t i, (b, ms) ∈ bs ∧ m ∈ ms ∧ m.site = false ∧ m.dominant = .ok (some (t, i)) ∧
      k = scriptKey b t i := by
  obtain ⟨es, h1, rfl⟩ := activityScript_ok.1 h
  rw [putAll_keys]
  simp only [List.map_nil, List.not_mem_nil, false_or, List.mem_map]
  have hl := h1.length_eq
  constructor
  · rintro ⟨e, he, rfl⟩
    obtain ⟨n, hn, e'⟩ := List.mem_iff_getElem.1 he
    have hw := (List.forall₂_iff_get.1 h1).2 n (by omega) hn
    simp only [List.get_eq_getElem, e'] at hw
    obtain ⟨t, i, acts, hd, _, hk, _⟩ := hw
    have hj := List.getElem_mem (l := submetersOf bs) (n := n) (by omega)
    generalize (submetersOf bs)[n]'(by omega) = j at *
    unfold submetersOf at hj
    simp only [List.mem_flatMap, List.mem_map, List.mem_filter, decide_eq_true_eq] at hj
    obtain ⟨⟨b, ms⟩, hb, m, ⟨hm, hsite⟩, rfl⟩ := hj
    exact ⟨b, ms, m, t, i, hb, hm, hsite, hd, hk⟩
  · rintro ⟨b, ms, m, t, i, hb, hm, hsite, hd, rfl⟩
    have hj : (b, m) ∈ submetersOf bs := by
      unfold submetersOf
      simp only [List.mem_flatMap, List.mem_map, List.mem_filter, decide_eq_true_eq]
      exact ⟨(b, ms), hb, m, ⟨hm, hsite⟩, rfl⟩
    obtain ⟨n, hn, e'⟩ := List.mem_iff_getElem.1 hj
    have hw := (List.forall₂_iff_get.1 h1).2 n hn (by omega)
    simp only [List.get_eq_getElem, e'] at hw
    obtain ⟨t', i', acts, hd', _, hk, _⟩ := hw
    simp only at hd' hk
    rw [hd] at hd'; cases hd'
    exact ⟨_, List.getElem_mem _, hk⟩

/-- C92. If no two submeters of a building have the same dominant appliance (and types have no underscores), the file holds the
script of every submeter. -/
theorem C92_file_partial (sort : ActScript → ActScript) (bs : List (Nat × List ScriptMeter)) (store : List (String × ActScript))
    (h : activityScript sort bs [] = .ok store)
    (hd : (submetersOf bs).Pairwise (fun x y => x.1 = y.1 → x.2.dominant ≠ y.2.dominant))
    (hu : ∀ j ∈ submetersOf bs, ∀ t i, j.2.dominant = .ok (some (t, i)) → '_' ∉ t.toList)
    (b : Nat) (ms : List ScriptMeter) (m : ScriptMeter) (hb : (b, ms) ∈ bs) (hm : m ∈ ms) (hsite : m.site = false) :
    ∃ t i acts script, m.dominant = .ok (some (t, i)) ∧ m.activations = .ok acts ∧ scriptOf sort acts = .ok script ∧
      store.lookup (scriptKey b t i) = some script := by
  obtain ⟨es, h1, rfl⟩ := activityScript_ok.1 h
  have hj : (b, m) ∈ submetersOf bs := by
    unfold submetersOf
    simp only [List.mem_flatMap, List.mem_map, List.mem_filter, decide_eq_true_eq]
    exact ⟨(b, ms), hb, m, ⟨hm, hsite⟩, rfl⟩
  clear h hb hm
  generalize submetersOf bs = js at *
  obtain ⟨pre, post, rfl⟩ := List.append_of_mem hj
  have key : ∃ es1 e es2, es = es1 ++ e :: es2 ∧ Writes sort (b, m) e ∧ List.Forall₂ (Writes sort) post es2 := by
    obtain ⟨es1, y, _, h2, rfl⟩ := forall2_append_left h1
    cases h2 with
    | cons ha hb => exact ⟨es1, _, _, rfl, ha, hb⟩
  obtain ⟨es1, e, es2, rfl, hw, hp⟩ := key
  obtain ⟨t, i, acts, w1, w2, w3, w4⟩ := hw
  simp only at w1 w2 w3
  refine ⟨t, i, acts, e.2, w1, w2, w4, ?_⟩
  rw [← w3]
  apply putAll_lookup_last
  intro hmem
  obtain ⟨e', he', hk⟩ := List.mem_map.1 hmem
  obtain ⟨n, hn, en⟩ := List.mem_iff_getElem.1 he'
  have hl := hp.length_eq
  have hw' := (List.forall₂_iff_get.1 hp).2 n (by omega) hn
  simp only [List.get_eq_getElem, en] at hw'
  obtain ⟨t', i', acts', v1, v2, v3, v4⟩ := hw'
  have hjm : post[n]'(by omega) ∈ post := List.getElem_mem _
  generalize post[n]'(by omega) = j' at *
  rw [v3, w3] at hk
  obtain ⟨k1, k2, k3⟩ := C92_key_injective _ _ _ _ _ _ (hu j' (by simp [hjm]) t' i' v1) (hu (b, m) (by simp) t i w1) hk
  have := (List.pairwise_append.1 hd).2.1
  rw [List.pairwise_cons] at this
  refine this.1 j' hjm k1.symm ?_
  simp only
  rw [w1, v1, k2, k3]

/-! ### Examples and counterexamples -/

/-- A sort for the examples. -/
def exSort (l : ActScript) : ActScript := l.insertionSort (fun x y => x.1 ≤ y.1)

theorem exSort_sorts : SortsScripts exSort := by
  intro l
  have : Std.Total (fun x y : Int × Bool => x.1 ≤ y.1) := ⟨fun a b => le_total a.1 b.1⟩
  have : IsTrans (Int × Bool) (fun x y : Int × Bool => x.1 ≤ y.1) := ⟨fun a b c h1 h2 => le_trans h1 h2⟩
  exact ⟨List.perm_insertionSort _ _, List.pairwise_insertionSort _ _⟩

/-- A fridge of a known type. -/
def exFridgeA : AAppl := ⟨none, none, none, none, some ⟨some 50, some 60, some 12⟩⟩

/-- Readings, a second apart. -/
def exReadings (l : List Rat) : PSeries := (List.range l.length).zipWith (fun i v => ((i : Int) * 1000000000, some v)) l

/-- Non-vacuity of C92. -/
example : meterActivations [exFridgeA, ⟨some 20, none, none, none, some ⟨none, some 0, none⟩⟩] ⟨some 0, some 1, 1, none⟩
      ⟨[exReadings [0, 0, 30, 30, 0, 0, 0]], none⟩ = .ok [[(0, some 0), (1000000000, some 0), (2000000000, some 30),
        (3000000000, some 30), (4000000000, some 0)]] ∧
    meterThreshold [exFridgeA, ⟨some 20, none, none, none, some ⟨none, none, none⟩⟩] = .ok 20 ∧
    aggregateAttr AType.minOn [exFridgeA, ⟨some 20, none, none, none, some ⟨none, some 90, none⟩⟩] = .ok 90 := by
  refine ⟨?_, ?_, ?_⟩ <;> decide +kernel

example : activityScript id [(1, [⟨true, .ok none, .ok []⟩, ⟨false, .ok (some ("electric oven", 2)), .ok [exReadings [0, 9, 0]]⟩])] [] =
    .ok [("/building1/electric_oven__2", [(0, true), (2000000000, false)])] := by decide +kernel

/-- C92. An activation that crosses from one chunk to the next is in neither: activations depend on the chunks. -/
theorem C92_chunks_counterexample :
    (∃ a, meterActivations [] ⟨some 0, some 0, 1, some 5⟩
      ⟨[[(0, some 0), (1, some 9), (2, some 9), (3, some 0)]], none⟩ = .ok [a]) ∧
    meterActivations [] ⟨some 0, some 0, 1, some 5⟩
      ⟨[[(0, some 0), (1, some 9), (2, some 9)], [(2, some 9), (3, some 0)]], none⟩ = .ok [] := by
  refine ⟨⟨[(0, some 0), (1, some 9), (2, some 9), (3, some 0)], ?_⟩, ?_⟩ <;> decide +kernel

/-- C92. The documentation says that durations default to the metadata; those of the appliance itself are ignored. -/
theorem C92_own_duration_counterexample :
    aggregateAttr AType.minOn [⟨none, none, some 600, none, some ⟨none, none, none⟩⟩] = .ok 0 := by decide +kernel

/-- C92. The documentation says that the threshold is 10 W if an appliance has none; here it is 5 W. -/
theorem C92_default_counterexample :
    meterThreshold [⟨none, none, none, none, some ⟨none, none, none⟩⟩, ⟨some 5, none, none, none, none⟩] = .ok 5 := by
  decide +kernel

/-- C92. With the default border activations close to each other overlap, and the script has two starts in a row. -/
theorem C92_alternation_counterexample :
    meterActivations [] ⟨some 0, some 0, 1, some 5⟩ ⟨[[(0, some 0), (1, some 9), (2, some 0), (3, some 9), (4, some 0)]], none⟩ =
      .ok [[(0, some 0), (1, some 9), (2, some 0)], [(1, some 9), (2, some 0), (3, some 9), (4, some 0)]] ∧
    scriptOf exSort [[(0, some 0), (1, some 9), (2, some 0)], [(1, some 9), (2, some 0), (3, some 9), (4, some 0)]] =
      .ok [(0, true), (1, true), (2, false), (4, false)] := by
  refine ⟨?_, ?_⟩ <;> decide +kernel

/-- C92. Two meters of the same appliance (an appliance wired to two meters) share a key: the second script replaces the
first. -/
theorem C92_same_counterexample :
    activityScript id [(1, [⟨false, .ok (some ("oven", 1)), .ok [exReadings [0, 9, 0]]⟩, ⟨false, .ok (some ("oven", 1)), .ok []⟩])] [] =
    .ok [("/building1/oven__1", [])] := by decide +kernel

/-- C92. A submeter without appliance makes the whole export fail. -/
theorem C92_no_appliance_counterexample :
    activityScript id [(1, [⟨false, .ok (some ("oven", 1)), .ok []⟩, ⟨false, .ok none, .ok []⟩])] [] = .error .attributeError := by
  decide +kernel

end Nilmtk
