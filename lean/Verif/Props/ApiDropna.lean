import Verif.Model.ApiDropna
import Mathlib.Data.List.Forall2
import Mathlib.Data.List.Nodup
/-!
C61: `API.dropna` aligns the mains and the appliances.
-/
namespace Nilmtk

/-- The frame has a row at `t`, and no reading of it is NaN. -/
def CompleteAt (f : RowFrame) (t : Int) : Prop := ∃ vs, (t, vs) ∈ f ∧ none ∉ vs

/-- No timestamp is repeated. -/
def UniqueIndex (f : RowFrame) : Prop := (f.map Prod.fst).Nodup

theorem mem_dropna (f : RowFrame) (r : Int × List (Option Rat)) : r ∈ f.dropna ↔ r ∈ f ∧ none ∉ r.2 := by
  unfold RowFrame.dropna
  rw [List.mem_filter, List.all_eq_true]
  constructor
  · rintro ⟨h, h'⟩
    exact ⟨h, fun hn => by simpa using h' none hn⟩
  · rintro ⟨h, h'⟩
    refine ⟨h, fun x hx => ?_⟩
    cases x with
    | none => exact absurd hx h'
    | some v => rfl

theorem mem_dropna_index (f : RowFrame) (t : Int) : t ∈ f.dropna.index ↔ CompleteAt f t := by
  unfold RowFrame.index CompleteAt
  rw [List.mem_map]
  constructor
  · rintro ⟨⟨t', vs⟩, h, rfl⟩; exact ⟨vs, (mem_dropna f _).1 h⟩
  · rintro ⟨vs, h⟩; exact ⟨(t, vs), (mem_dropna f (t, vs)).2 h, rfl⟩

theorem dropna_unique {f : RowFrame} (h : UniqueIndex f) : UniqueIndex f.dropna := by
  unfold UniqueIndex at *
  exact h.sublist (List.Sublist.map _ List.filter_sublist)

theorem find_unique {f : RowFrame} (h : UniqueIndex f) {t : Int} {vs : List (Option Rat)} (hm : (t, vs) ∈ f) :
    f.find? (fun r => r.1 == t) = some (t, vs) := by
  induction f with
  | nil => simp at hm
  | cons r f ih =>
    unfold UniqueIndex at h
    simp only [List.map_cons, List.nodup_cons] at h
    rcases List.mem_cons.1 hm with rfl | hm
    · simp
    · have : r.1 ≠ t := by
        rintro rfl
        exact h.1 (List.mem_map.2 ⟨_, hm, rfl⟩)
      rw [List.find?_cons_of_neg (by simpa using this)]
      exact ih h.2 hm

theorem loc_spec {f : RowFrame} (hu : UniqueIndex f) : ∀ ix : List Int, (∀ t ∈ ix, t ∈ f.index) →
    ∃ g, f.loc ix = .ok g ∧ g.index = ix ∧ ∀ r ∈ g, r ∈ f := by
  intro ix
  induction ix with
  | nil => intro _; exact ⟨[], rfl, rfl, by simp⟩
  | cons t ts ih =>
    intro h
    obtain ⟨⟨t', vs⟩, hm, rfl⟩ := List.mem_map.1 (h t (by simp))
    obtain ⟨g, hg, hi, hr⟩ := ih (fun x hx => h x (by simp [hx]))
    refine ⟨(t', vs) :: g, ?_, ?_, ?_⟩
    · simp only [RowFrame.loc]; rw [find_unique hu hm]; simp [hg]
    · simp only [RowFrame.index, List.map_cons] at hi ⊢; rw [hi]
    · intro r hr'
      rcases List.mem_cons.1 hr' with rfl | hr'
      · exact hm
      · exact hr r hr'

theorem loc_self {f : RowFrame} (hu : UniqueIndex f) : f.loc f.index = .ok f := by
  obtain ⟨g, hg, hi, hr⟩ := loc_spec hu f.index (fun t ht => ht)
  rw [hg]
  congr 1
  have hlen : g.length = f.length := by
    have := congrArg List.length hi
    simpa [RowFrame.index] using this
  apply List.ext_getElem hlen
  intro i h1 h2
  have hm : g[i] ∈ f := hr _ (List.getElem_mem h1)
  have e : g[i].1 = f[i].1 := by
    have : g.index[i]'(by simpa [RowFrame.index] using h1) = f.index[i]'(by simpa [RowFrame.index] using h2) := by
      simp only [hi]
    simpa [RowFrame.index] using this
  have a := find_unique hu (t := g[i].1) (vs := g[i].2) hm
  have b := find_unique hu (t := f[i].1) (vs := f[i].2) (List.getElem_mem h2)
  rw [e] at a
  rw [b] at a
  simp only [Option.some.injEq, Prod.mk.injEq, true_and] at a
  exact Prod.ext e a.symm

theorem intersectAll_spec (fs : List RowFrame) : ∀ ix : List Int,
    (intersectAll ix fs).Sublist ix ∧ ∀ t, t ∈ intersectAll ix fs ↔ t ∈ ix ∧ ∀ f ∈ fs, t ∈ f.index := by
  induction fs with
  | nil => intro ix; simp [intersectAll]
  | cons f fs ih =>
    intro ix
    obtain ⟨h1, h2⟩ := ih (indexIntersection ix f.index)
    refine ⟨h1.trans List.filter_sublist, fun t => ?_⟩
    rw [intersectAll, h2]
    simp only [indexIntersection, List.mem_filter, List.contains_iff_mem, List.mem_cons, forall_eq_or_imp]
    tauto

theorem locAll_spec (ix : List Int) : ∀ fs : List RowFrame, (∀ f ∈ fs, UniqueIndex f ∧ ∀ t ∈ ix, t ∈ f.index) →
    ∃ gs, locAll ix fs = .ok gs ∧ List.Forall₂ (fun f g => g.index = ix ∧ ∀ r ∈ g, r ∈ f) fs gs := by
  intro fs
  induction fs with
  | nil => intro _; exact ⟨[], rfl, .nil⟩
  | cons f fs ih =>
    intro h
    obtain ⟨hu, hix⟩ := h f (by simp)
    obtain ⟨g, hg, h1, h2⟩ := loc_spec hu ix hix
    obtain ⟨gs, hgs, hf⟩ := ih (fun f' hf' => h f' (by simp [hf']))
    exact ⟨g :: gs, by simp [locAll, hg, hgs], .cons ⟨h1, h2⟩ hf⟩

theorem apiDropna_eq (mains : RowFrame) (apps : List RowFrame) (hm : UniqueIndex mains) :
    apiDropna mains apps =
      match mains.dropna.loc (intersectAll mains.dropna.index (apps.map RowFrame.dropna)) with
      | .error e => .error e
      | .ok m => match locAll (intersectAll mains.dropna.index (apps.map RowFrame.dropna)) (apps.map RowFrame.dropna) with
        | .error e => .error e
        | .ok apps' => .ok (m, apps', apps.map RowFrame.dropna) := by
  unfold apiDropna
  simp only [loc_self (dropna_unique hm)]
  rfl

/-- `dropna` succeeds, and afterwards the mains and all appliances have one common index: the timestamps, in the order of
the mains, at which the mains and every appliance have a row without NaN. No reading is changed. -/
theorem C61_aligned (mains : RowFrame) (apps : List RowFrame) (hm : UniqueIndex mains) (ha : ∀ f ∈ apps, UniqueIndex f) :
    ∃ mains' apps' caller ix, apiDropna mains apps = .ok (mains', apps', caller) ∧
      mains'.map Prod.fst = ix ∧ ix.Sublist (mains.map Prod.fst) ∧ (∀ r ∈ mains', r ∈ mains ∧ none ∉ r.2) ∧
      List.Forall₂ (fun f g => g.map Prod.fst = ix ∧ ∀ r ∈ g, r ∈ f ∧ none ∉ r.2) apps apps' ∧
      ∀ t, t ∈ ix ↔ CompleteAt mains t ∧ ∀ f ∈ apps, CompleteAt f t := by
  obtain ⟨hsub, hmem⟩ := intersectAll_spec (apps.map RowFrame.dropna) mains.dropna.index
  obtain ⟨m, hm1, hm2, hm3⟩ := loc_spec (dropna_unique hm) (intersectAll mains.dropna.index (apps.map RowFrame.dropna))
    (fun t ht => ((hmem t).1 ht).1)
  obtain ⟨gs, hg1, hg2⟩ := locAll_spec (intersectAll mains.dropna.index (apps.map RowFrame.dropna))
    (apps.map RowFrame.dropna) (by
      intro f hf
      refine ⟨?_, fun t ht => ((hmem t).1 ht).2 f hf⟩
      obtain ⟨f0, hf0, rfl⟩ := List.mem_map.1 hf
      exact dropna_unique (ha f0 hf0))
  refine ⟨m, gs, apps.map RowFrame.dropna, _, by rw [apiDropna_eq _ _ hm, hm1]; simp only [hg1], hm2, ?_, ?_, ?_, ?_⟩
  · exact hsub.trans (List.Sublist.map _ List.filter_sublist)
  · exact fun r hr => (mem_dropna mains r).1 (hm3 r hr)
  · rw [List.forall₂_map_left_iff] at hg2
    exact hg2.imp (fun f g h => ⟨h.1, fun r hr => (mem_dropna f r).1 (h.2 r hr)⟩)
  · intro t
    rw [hmem, mem_dropna_index]
    simp only [List.forall_mem_map, mem_dropna_index]

/-- Running `dropna` on its own result changes nothing. -/
theorem C61_idempotent (mains mains' : RowFrame) (apps apps' caller : List RowFrame) (hm : UniqueIndex mains)
    (ha : ∀ f ∈ apps, UniqueIndex f) (h : apiDropna mains apps = .ok (mains', apps', caller)) :
    apiDropna mains' apps' = .ok (mains', apps', apps') := by
  obtain ⟨m, gs, c, ix, h1, h2, h3, h4, h5, h6⟩ := C61_aligned mains apps hm ha
  rw [h] at h1
  simp only [Except.ok.injEq, Prod.mk.injEq] at h1
  obtain ⟨rfl, rfl, rfl⟩ := h1
  have hixn : ix.Nodup := List.Nodup.sublist h3 hm
  have fix : ∀ f : RowFrame, (∀ r ∈ f, none ∉ r.2) → f.dropna = f := by
    intro f hf
    unfold RowFrame.dropna
    rw [List.filter_eq_self]
    intro r hr
    have := (mem_dropna f r).2 ⟨hr, hf r hr⟩
    exact (List.mem_filter.1 this).2
  have hmu : UniqueIndex mains' := by unfold UniqueIndex; rw [h2]; exact hixn
  have hmd : mains'.dropna = mains' := fix _ (fun r hr => (h4 r hr).2)
  have hall : ∀ g ∈ apps', g.map Prod.fst = ix ∧ ∀ r ∈ g, none ∉ r.2 := by
    clear h h6
    induction h5 with
    | nil => simp
    | cons hab _ ih =>
      intro g hg
      rcases List.mem_cons.1 hg with rfl | hg
      · exact ⟨hab.1, fun r hr => (hab.2 r hr).2⟩
      · exact ih (fun f hf => ha f (by simp [hf])) g hg
  have hd : apps'.map RowFrame.dropna = apps' := by
    conv_rhs => rw [← List.map_id apps']
    apply List.map_congr_left
    intro g hg
    exact fix g (hall g hg).2
  have hix : intersectAll mains'.index apps' = ix := by
    have hi : mains'.index = ix := h2
    rw [hi]
    clear h h5 h6 hd
    induction apps' with
    | nil => rfl
    | cons g gs ih =>
      rw [intersectAll]
      have : indexIntersection ix g.index = ix := by
        unfold indexIntersection
        rw [List.filter_eq_self]
        intro t ht
        rw [List.contains_iff_mem]
        have hg : g.index = ix := (hall g (by simp)).1
        rw [hg]; exact ht
      rw [this]
      exact ih (fun g' hg' => hall g' (by simp [hg']))
  rw [apiDropna_eq _ _ hmu, hmd, hd, hix]
  have hl : mains'.loc ix = .ok mains' := by
    have := loc_self hmu
    rwa [show mains'.index = ix from h2] at this
  have hla : locAll ix apps' = .ok apps' := by
    clear h h5 h6 hd hix
    induction apps' with
    | nil => rfl
    | cons g gs ih =>
      have hgu : UniqueIndex g := by unfold UniqueIndex; rw [(hall g (by simp)).1]; exact hixn
      have hgl : g.loc ix = .ok g := by
        have := loc_self hgu
        rwa [show g.index = ix from (hall g (by simp)).1] at this
      simp [locAll, hgl, ih (fun g' hg' => hall g' (by simp [hg']))]
  simp only [hl, hla]

/-- The appliance frames in the list passed by the caller are replaced: the caller's own list loses its incomplete rows
(and is not aligned). -/
theorem C61_caller_list_changed (mains mains' : RowFrame) (apps apps' caller : List RowFrame) (hm : UniqueIndex mains)
    (h : apiDropna mains apps = .ok (mains', apps', caller)) :
    List.Forall₂ (fun f g => ∀ r, r ∈ g ↔ r ∈ f ∧ none ∉ r.2) apps caller := by
  rw [apiDropna_eq _ _ hm] at h
  split at h
  · cases h
  · split at h
    · cases h
    · simp only [Except.ok.injEq, Prod.mk.injEq] at h
      obtain ⟨-, -, rfl⟩ := h
      rw [List.forall₂_map_right_iff]
      exact List.forall₂_same.2 (fun f _ r => mem_dropna f r)

set_option synthInstance.maxSize 2000 in
example : apiDropna [(0, [some 5]), (1, [none]), (2, [some 7]), (3, [some 8])]
    [[(0, [some 1]), (1, [some 2]), (2, [some 3])], [(2, [some 4]), (0, [none]), (3, [some 1])]] =
    .ok ([(2, [some 7])], [[(2, [some 3])], [(2, [some 4])]],
      [[(0, [some 1]), (1, [some 2]), (2, [some 3])], [(2, [some 4]), (3, [some 1])]]) := by decide +kernel

example : UniqueIndex [(0, [some 5]), (1, [none]), (2, [some 7])] := by unfold UniqueIndex; decide

end Nilmtk
