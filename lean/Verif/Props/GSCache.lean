import Verif.Model.GSCache
import Verif.Props.GoodSections
import Verif.Props.Cache
/-!
C80: the statistics cache of good sections.
-/
namespace Nilmtk
open TF

/-! ### Specification -/

/-- A frame as the constructor makes it. -/
def PlainFrame (g : TF) : Prop :=
  g = mk' g.start g.stop ∧ ∀ a b, g.start = some a → g.stop = some b → a < b

/-- The rows a computation stores for some periods: one row per period with good sections, sorted by start. -/
def freshRows (f : Int × Int → List TF) (ps : List (Int × Int)) : List (RRow (List TF)) :=
  sortRows ((ps.filter (fun p => !(f p).isEmpty)).map (fun p => ⟨p.1, p.2, f p⟩))

/-- The bounds of the returned sections. -/
def frameBounds (fs : List TF) : List (Option Int × Option Int) := fs.map (fun g => (g.start, g.stop))

/-- A request whose periods are bounded and share no instant, and whose computation gives, for whichever of the periods,
the sections `f` of the data; no section is open towards a later period of the request. -/
structure GSGood (f : Int × Int → List TF) (r : GSReq) : Prop where
  raw : r.preprocessing = false
  bounded : ∀ s ∈ r.sections, s.empty = false → SecOK s
  apart : ((r.sections.filter (fun s => !s.empty)).map secBounds).Pairwise (fun p q => p.2 ≤ q.1 ∨ q.2 ≤ p.1)
  closed : AllClosed (freshRows f ((r.sections.filter (fun s => !s.empty)).map secBounds))
  data : ∀ sub, (∀ s ∈ sub, s ∈ r.sections ∧ s.empty = false) → (sub.map secBounds).Nodup →
    r.compute sub = .ok (freshRows f (sub.map secBounds))

/-- The sections of the data: plain frames, starting inside their period when they are open at the end. -/
def GSData (f : Int × Int → List TF) : Prop :=
  ∀ p, ∀ g ∈ f p, PlainFrame g ∧ ∀ a, g.start = some a → g.stop = none → a < p.2

/-! ### Lemmas: rows -/

/-- The period of a row. -/
def gsPair (r : RRow (List TF)) : Int × Int := (r.start, r.stop)

theorem rows_eq_of_perm {α : Type} {a b : List (RRow α)} (h1 : RowsOK a) (h2 : RowsOK b) (h : a.Perm b) : a = b := by
  apply List.Perm.eq_of_pairwise (le := fun x y : RRow α => x.stop ≤ y.start) _ h1.2 h2.2 h
  intro x y hx hy hxy hyx
  have := h1.1 x hx
  have := h2.1 y hy
  omega

theorem rowsOK_filter {α : Type} {rows : List (RRow α)} (h : RowsOK rows) (p : RRow α → Bool) :
    RowsOK (rows.filter p) :=
  ⟨fun r hr => h.1 r (List.mem_filter.1 hr).1, h.2.filter _⟩

theorem rowsOK_nodup {α : Type} {rows : List (RRow α)} (h : RowsOK rows) : rows.Nodup := by
  obtain ⟨h1, h2⟩ := h
  induction rows with
  | nil => exact .nil
  | cons r rs ih =>
    obtain ⟨a, b⟩ := List.pairwise_cons.1 h2
    refine List.nodup_cons.2 ⟨?_, ih (fun x hx => h1 x (List.mem_cons_of_mem _ hx)) b⟩
    intro hm
    have := a r hm
    have := h1 r List.mem_cons_self
    omega

theorem rowsOK_key {rows : List (RRow (List TF))} (h : RowsOK rows) {a b : RRow (List TF)} (ha : a ∈ rows) (hb : b ∈ rows)
    (he : gsPair a = gsPair b) : a = b := by
  obtain ⟨h1, h2⟩ := h
  simp only [gsPair, Prod.mk.injEq] at he
  induction rows with
  | nil => cases ha
  | cons r rs ih =>
    obtain ⟨k1, k2⟩ := List.pairwise_cons.1 h2
    have hr := h1 r List.mem_cons_self
    rcases List.mem_cons.1 ha with ha' | ha' <;> rcases List.mem_cons.1 hb with hb' | hb'
    · rw [ha', hb']
    · subst ha'; have := k1 b hb'; omega
    · subst hb'; have := k1 a ha'; omega
    · exact ih ha' hb' (fun x hx => h1 x (List.mem_cons_of_mem _ hx)) k2

theorem rowsOK_apart_mem {rows : List (RRow (List TF))} (h : RowsOK rows) {a b : RRow (List TF)} (ha : a ∈ rows)
    (hb : b ∈ rows) (hne : a ≠ b) : Apart a b := by
  have hpw := rowsOK_apart h
  clear h
  induction rows with
  | nil => cases ha
  | cons r rs ih =>
    obtain ⟨k1, k2⟩ := List.pairwise_cons.1 hpw
    rcases List.mem_cons.1 ha with ha' | ha' <;> rcases List.mem_cons.1 hb with hb' | hb'
    · exact absurd (ha'.trans hb'.symm) hne
    · subst ha'; exact k1 b hb'
    · subst hb'; exact (k1 a ha').symm
    · exact ih ha' hb' k2

theorem fresh_ok (f : Int × Int → List TF) (ps : List (Int × Int)) (h : ∀ p ∈ ps, p.1 < p.2)
    (hap : ps.Pairwise (fun p q => p.2 ≤ q.1 ∨ q.2 ≤ p.1)) : RowsOK (freshRows f ps) := by
  apply rowsOK_sort
  · intro r hr
    obtain ⟨p, hp, rfl⟩ := List.mem_map.1 hr
    exact h p (List.mem_filter.1 hp).1
  · rw [List.pairwise_map]
    exact hap.filter _

theorem mem_fresh {f : Int × Int → List TF} {ps : List (Int × Int)} {r : RRow (List TF)} :
    r ∈ freshRows f ps ↔ gsPair r ∈ ps ∧ r.val ≠ [] ∧ r.val = f (gsPair r) := by
  unfold freshRows
  rw [(sortRows_perm _).mem_iff, List.mem_map]
  constructor
  · rintro ⟨p, hp, rfl⟩
    obtain ⟨h1, h2⟩ := List.mem_filter.1 hp
    refine ⟨h1, ?_, rfl⟩
    intro h0
    simp only at h0
    simp [h0] at h2
  · rintro ⟨h1, h2, h3⟩
    refine ⟨gsPair r, List.mem_filter.2 ⟨h1, ?_⟩, ?_⟩
    · rw [← h3]; simpa using h2
    · rw [← h3]; rfl

/-! ### Lemmas: closed rows -/

/-- The row has a section, and its first section has a start. -/
def RowOpens (r : RRow (List TF)) : Prop := ∃ f fs, r.val = f :: fs ∧ f.start ≠ none

/-- The last section of the row has an end. -/
def RowShuts (r : RRow (List TF)) : Prop := ∃ g, r.val.getLast? = some g ∧ g.stop ≠ none

theorem allClosed_iff (rows : List (RRow (List TF))) :
    AllClosed rows ↔ (∀ r ∈ rows, RowOpens r) ∧ rows.Pairwise (fun a _ => RowShuts a) := by
  induction rows with
  | nil => simp [AllClosed]
  | cons r rs ih =>
    cases rs with
    | nil => simp [AllClosed, RowOpens]
    | cons q qs =>
      have : AllClosed (r :: q :: qs) ↔ RowOpens r ∧ RowShuts r ∧ AllClosed (q :: qs) := Iff.rfl
      rw [this, ih, List.pairwise_cons (a := r), List.forall_mem_cons (a := r)]
      constructor
      · rintro ⟨h1, h2, h3, h4⟩
        exact ⟨⟨h1, h3⟩, fun _ _ => h2, h4⟩
      · rintro ⟨⟨h1, h2⟩, h3, h4⟩
        exact ⟨h1, h3 q List.mem_cons_self, h2, h4⟩

theorem allClosed_filter {rows : List (RRow (List TF))} (h : AllClosed rows) (p : RRow (List TF) → Bool) :
    AllClosed (rows.filter p) := by
  rw [allClosed_iff] at *
  exact ⟨fun r hr => h.1 r (List.mem_filter.1 hr).1, h.2.filter _⟩

/-! ### Lemmas: what `combined` does to closed rows -/

/-- The last section gets `include_end`, and the end of the row if it has none. -/
def sealFrame (e : Int) (g : TF) : TF :=
  if g.stop.isSome then { g with includeEnd := true } else { g with includeEnd := true, rawEnd := some e }

/-- The last section of the row sealed. -/
def sealRow (r : RRow (List TF)) : RRow (List TF) :=
  match r.val.getLast? with
  | none => r
  | some g => { r with val := setLast r.val (sealFrame r.stop g) }

/-- The last row sealed. -/
def sealRows : List (RRow (List TF)) → List (RRow (List TF))
  | [] => []
  | [r] => [sealRow r]
  | r :: q :: rs => r :: sealRows (q :: rs)

/-- The frames are enabled, and start inside the row when they are open at the end. -/
def FramesOK (rows : List (RRow (List TF))) : Prop :=
  ∀ r ∈ rows, ∀ g ∈ r.val, g.enabled = true ∧ ∀ a, g.start = some a → g.stop = none → a < r.stop

theorem sealRow_bounds (r : RRow (List TF)) : (sealRow r).start = r.start ∧ (sealRow r).stop = r.stop := by
  unfold sealRow
  split <;> exact ⟨rfl, rfl⟩

theorem putLast_seal (rows : List (RRow (List TF))) (h : ∀ r ∈ rows, r.val ≠ []) (z : RRow (List TF))
    (hz : rows.getLast? = some z) (g : TF) (hg : z.val.getLast? = some g) :
    lastSection rows = some g ∧ putLast rows (sealFrame z.stop g) = sealRows rows := by
  induction rows with
  | nil => cases hz
  | cons r rs ih =>
    cases rs with
    | nil =>
      simp only [List.getLast?_singleton, Option.some.injEq] at hz
      subst hz
      refine ⟨by simp [lastSection, hg], ?_⟩
      simp [putLast, sealRows, sealRow, hg]
    | cons q qs =>
      rw [List.getLast?_cons_cons] at hz
      obtain ⟨h1, h2⟩ := ih (fun x hx => h x (List.mem_cons_of_mem _ hx)) hz
      have hne : ¬ ((q :: qs).map RRow.val).flatten = [] := by
        have := h q (by simp)
        simp [this]
      refine ⟨?_, ?_⟩
      · unfold lastSection at h1 ⊢
        rw [List.map_cons, List.flatten_cons, List.getLast?_append, h1]; rfl
      · rw [putLast, if_neg hne, h2, sealRows]

theorem combined_closed (msp : Int) (rows : List (RRow (List TF))) (h : AllClosed rows) (hf : FramesOK rows) :
    combined msp rows = .ok (((sealRows rows).map RRow.val).flatten, sealRows rows) := by
  have hloop := combineLoop_closed msp rows [] none h (by intro f hf; simp [lastSection] at hf)
  unfold combined
  rw [hloop]
  simp only [List.nil_append]
  have hne : ∀ r ∈ rows, r.val ≠ [] := by
    intro r hr
    obtain ⟨f, fs, hv, _⟩ := ((allClosed_iff rows).1 h).1 r hr
    rw [hv]; simp
  cases hz : rows.getLast? with
  | none =>
    rw [List.getLast?_eq_none_iff] at hz
    subst hz
    rfl
  | some z =>
    have hzm := List.mem_of_getLast? hz
    cases hg : z.val.getLast? with
    | none => exact absurd (List.getLast?_eq_none_iff.1 hg) (hne z hzm)
    | some g =>
      obtain ⟨h1, h2⟩ := putLast_seal rows hne z hz g hg
      obtain ⟨h3, h4⟩ := hf z hzm g (List.mem_of_getLast? hg)
      rw [h1]
      simp only [Option.map_some, Option.some_or]
      have hst : ({ g with includeEnd := true } : TF).stop = g.stop := rfl
      rw [hst]
      cases hs : g.stop with
      | some e =>
        have : sealFrame z.stop g = { g with includeEnd := true } := by simp [sealFrame, hs]
        rw [← this, h2]
      | none =>
        have e1 : sealFrame z.stop g = { g with includeEnd := true, rawEnd := some z.stop } := by
          simp [sealFrame, hs]
        have e2 : ({ g with includeEnd := true } : TF).setEnd (some z.stop) = .ok (sealFrame z.stop g) := by
          rw [e1]
          unfold TF.setEnd
          have hst : ({ g with includeEnd := true } : TF).start = g.start := rfl
          rw [hst]
          cases ha : g.start with
          | none => rfl
          | some a =>
            have := h4 a ha hs
            simp only
            rw [if_neg (by omega)]
        rw [e2]
        simp only
        rw [h2]

/-! ### Lemmas: sealing -/

theorem sealFrame_bounds (e : Int) (g : TF) (he : g.enabled = true) :
    (sealFrame e g).start = g.start ∧ (sealFrame e g).stop = some (g.stop.getD e) ∧ (sealFrame e g).enabled = true := by
  unfold sealFrame
  cases hs : g.stop with
  | some b => simp only [Option.isSome_some, if_true]; exact ⟨rfl, hs, he⟩
  | none =>
    simp only [Option.isSome_none, Bool.false_eq_true, if_false]
    exact ⟨rfl, by simp [TF.stop, he], he⟩

theorem sealRow_val {r : RRow (List TF)} {g : TF} (hg : r.val.getLast? = some g) :
    (sealRow r).val = r.val.dropLast ++ [sealFrame r.stop g] := by
  unfold sealRow
  rw [hg]; rfl

theorem val_split {l : List TF} {g : TF} (hg : l.getLast? = some g) : l = l.dropLast ++ [g] := by
  exact (List.dropLast_append_getLast? g hg).symm

theorem framesOK_seal {rows : List (RRow (List TF))} (h : FramesOK rows) (S : RRow (List TF) → Bool) :
    FramesOK (rows.map (fun r => if S r then sealRow r else r)) := by
  intro r' hr'
  obtain ⟨r, hr, rfl⟩ := List.mem_map.1 hr'
  have h1 := h r hr
  split
  · cases hg : r.val.getLast? with
    | none => unfold sealRow; rw [hg]; exact h1
    | some g =>
      rw [sealRow_val hg, (sealRow_bounds r).2]
      intro x hx
      rcases List.mem_append.1 hx with hx | hx
      · exact h1 x (List.mem_of_mem_dropLast hx)
      · rw [List.mem_singleton] at hx
        subst hx
        obtain ⟨b1, b2, b3⟩ := sealFrame_bounds r.stop g (h1 g (List.mem_of_getLast? hg)).1
        refine ⟨b3, ?_⟩
        intro a _ hn
        rw [b2] at hn; cases hn
  · exact h1

theorem rowOpens_seal {r : RRow (List TF)} (h : RowOpens r) (hf : ∀ g ∈ r.val, g.enabled = true) : RowOpens (sealRow r) := by
  obtain ⟨f, fs, hv, hs⟩ := h
  cases hg : r.val.getLast? with
  | none => rw [hv] at hg; simp at hg
  | some g =>
    have h1 := sealFrame_bounds r.stop g (hf g (List.mem_of_getLast? hg))
    unfold RowOpens
    rw [sealRow_val hg, hv]
    cases fs with
    | nil =>
      rw [hv] at hg
      simp only [List.getLast?_singleton, Option.some.injEq] at hg
      subst hg
      exact ⟨_, [], rfl, by rw [h1.1]; exact hs⟩
    | cons x xs => exact ⟨f, _, rfl, hs⟩

theorem rowShuts_seal {r : RRow (List TF)} (h : RowShuts r) (hf : ∀ g ∈ r.val, g.enabled = true) : RowShuts (sealRow r) := by
  obtain ⟨g, hg, _⟩ := h
  have h1 := sealFrame_bounds r.stop g (hf g (List.mem_of_getLast? hg))
  refine ⟨sealFrame r.stop g, ?_, by rw [h1.2.1]; simp⟩
  rw [sealRow_val hg]; simp

theorem allClosed_seal {rows : List (RRow (List TF))} (h : AllClosed rows) (hf : FramesOK rows) (S : RRow (List TF) → Bool) :
    AllClosed (rows.map (fun r => if S r then sealRow r else r)) := by
  rw [allClosed_iff] at *
  constructor
  · intro r' hr'
    obtain ⟨r, hr, rfl⟩ := List.mem_map.1 hr'
    split
    · exact rowOpens_seal (h.1 r hr) (fun g hg => (hf r hr g hg).1)
    · exact h.1 r hr
  · rw [List.pairwise_map]
    have h2 := h.2
    refine List.Pairwise.imp_of_mem ?_ h2
    intro a b ha _ hs
    split
    · exact rowShuts_seal hs (fun g hg => (hf a ha g hg).1)
    · exact hs

theorem sealRow_frameBounds {r : RRow (List TF)} {g : TF} (hg : r.val.getLast? = some g)
    (hf : ∀ g ∈ r.val, g.enabled = true) :
    frameBounds (sealRow r).val = frameBounds r.val.dropLast ++ [(g.start, some (g.stop.getD r.stop))] := by
  have h1 := sealFrame_bounds r.stop g (hf g (List.mem_of_getLast? hg))
  rw [sealRow_val hg]
  simp [frameBounds, h1.1, h1.2.1]

theorem seal_shut {r : RRow (List TF)} (h : RowShuts r) (hf : ∀ g ∈ r.val, g.enabled = true) :
    frameBounds (sealRow r).val = frameBounds r.val := by
  obtain ⟨g, hg, hs⟩ := h
  obtain ⟨e, he⟩ := Option.ne_none_iff_exists'.1 hs
  rw [sealRow_frameBounds hg hf]
  conv_rhs => rw [val_split hg]
  simp [frameBounds, he]

theorem seal_seal {r : RRow (List TF)} (hf : ∀ g ∈ r.val, g.enabled = true) :
    frameBounds (sealRow (sealRow r)).val = frameBounds (sealRow r).val := by
  cases hg : r.val.getLast? with
  | none =>
    have : sealRow r = r := by unfold sealRow; rw [hg]
    rw [this, this]
  | some g =>
    have h1 := sealFrame_bounds r.stop g (hf g (List.mem_of_getLast? hg))
    apply seal_shut
    · refine ⟨sealFrame r.stop g, ?_, by rw [h1.2.1]; simp⟩
      rw [sealRow_val hg]; simp
    · intro x hx
      rw [sealRow_val hg] at hx
      rcases List.mem_append.1 hx with hx | hx
      · exact hf x (List.mem_of_mem_dropLast hx)
      · rw [List.mem_singleton] at hx; subst hx; exact h1.2.2

theorem frameBounds_append (a b : List TF) : frameBounds (a ++ b) = frameBounds a ++ frameBounds b := List.map_append

theorem sealRows_bounds (rows : List (RRow (List TF))) (h : AllClosed rows) (hf : FramesOK rows)
    (S : RRow (List TF) → Bool) :
    frameBounds (((sealRows (rows.map (fun r => if S r then sealRow r else r))).map RRow.val).flatten) =
      frameBounds (((sealRows rows).map RRow.val).flatten) := by
  induction rows with
  | nil => rfl
  | cons r rs ih =>
    have hen : ∀ g ∈ r.val, g.enabled = true := fun g hg => (hf r List.mem_cons_self g hg).1
    cases rs with
    | nil =>
      simp only [List.map_cons, List.map_nil, sealRows, List.flatten_cons, List.flatten_nil, List.append_nil]
      split
      · exact seal_seal hen
      · rfl
    | cons q qs =>
      obtain ⟨_, h2, h3⟩ : RowOpens r ∧ RowShuts r ∧ AllClosed (q :: qs) := h
      have := ih h3 (fun x hx => hf x (List.mem_cons_of_mem _ hx))
      simp only [List.map_cons, sealRows, List.flatten_cons, frameBounds_append] at this ⊢
      rw [this]
      congr 1
      split
      · exact seal_shut h2 hen
      · rfl

theorem sealRows_map (rows : List (RRow (List TF))) (h : rows.Nodup) :
    sealRows rows = rows.map (fun r => if decide (rows.getLast? = some r) then sealRow r else r) := by
  induction rows with
  | nil => rfl
  | cons r rs ih =>
    cases rs with
    | nil => simp [sealRows]
    | cons q qs =>
      obtain ⟨h1, h2⟩ := List.nodup_cons.1 h
      rw [sealRows, ih h2, List.map_cons, List.getLast?_cons_cons]
      congr 1
      have hn : ¬ (decide ((q :: qs).getLast? = some r) = true) := by
        simp only [decide_eq_true_eq]
        intro hl
        exact h1 (List.mem_of_getLast? hl)
      simp only [if_neg hn]

/-! ### Lemmas: export and import -/

theorem plain_ctor {g : TF} (h : PlainFrame g) : TF.ctor g.start g.stop = .ok g := by
  rw [ctor_ok h.2, ← h.1]

theorem gsFrames_export (a b : Int) (v : List TF) (h : ∀ g ∈ v, PlainFrame g) :
    gsFrames (exportGSRow ⟨a, b, v⟩) = .ok v := by
  unfold exportGSRow
  induction v with
  | nil => rfl
  | cons g gs ih =>
    simp only [List.map_cons, gsFrames]
    rw [plain_ctor (h g List.mem_cons_self)]
    have := ih (fun x hx => h x (List.mem_cons_of_mem _ hx))
    simp only at this ⊢
    rw [this]

theorem keyLe_total (a b : Int × Int) : keyLe a b ∨ keyLe b a := by unfold keyLe; omega

theorem keyLe_trans (a b c : Int × Int) (h1 : keyLe a b) (h2 : keyLe b c) : keyLe a c := by
  unfold keyLe at *; omega

theorem gsKeys_mem (cached : List GSCacheRow) (p : Int × Int) :
    p ∈ gsKeys cached ↔ ∃ c ∈ cached, (c.start, c.stop) = p := by
  unfold gsKeys
  rw [(List.perm_insertionSort _ _).mem_iff, List.mem_dedup, List.mem_map]

theorem gsKeys_nodup (cached : List GSCacheRow) : (gsKeys cached).Nodup :=
  (List.perm_insertionSort _ _).nodup_iff.2 (List.nodup_dedup _)

theorem gsKeys_sorted (cached : List GSCacheRow) : (gsKeys cached).Pairwise keyLe := by
  have : Std.Total keyLe := ⟨keyLe_total⟩
  have : IsTrans (Int × Int) keyLe := ⟨keyLe_trans⟩
  exact List.pairwise_insertionSort _ _

theorem gsGroup_ne (cached : List GSCacheRow) (p : Int × Int) : gsGroup cached p ≠ [] ↔ p ∈ gsKeys cached := by
  rw [gsKeys_mem]
  unfold gsGroup
  constructor
  · intro h
    obtain ⟨c, hc⟩ := List.exists_mem_of_ne_nil _ h
    obtain ⟨h1, h2⟩ := List.mem_filter.1 hc
    exact ⟨c, h1, by simpa using h2⟩
  · rintro ⟨c, h1, h2⟩ h0
    have : c ∈ cached.filter (fun c => decide ((c.start, c.stop) = p)) := List.mem_filter.2 ⟨h1, by simpa using h2⟩
    rw [h0] at this; cases this

theorem importGSLoop_ok (cached : List GSCacheRow) (sections : List TF) (F : Int × Int → List TF)
    (ks : List (Int × Int)) (hpos : ∀ p ∈ ks, p.1 < p.2)
    (hF : ∀ p ∈ ks, sections.any (fun s => s.eq (mk' (some p.1) (some p.2))) = true →
      gsFrames (gsGroup cached p) = .ok (F p))
    (hpw : (ks.filter (fun p => sections.any (fun s => s.eq (mk' (some p.1) (some p.2))))).Pairwise (fun a b => a.2 ≤ b.1))
    (acc : List (RRow (List TF))) (hacc : RowsOK acc)
    (hlt : ∀ r ∈ acc, ∀ p ∈ ks.filter (fun p => sections.any (fun s => s.eq (mk' (some p.1) (some p.2)))), r.stop ≤ p.1) :
    importGSLoop cached sections acc ks = .ok (acc ++
      (ks.filter (fun p => sections.any (fun s => s.eq (mk' (some p.1) (some p.2))))).map (fun p => ⟨p.1, p.2, F p⟩)) ∧
    RowsOK (acc ++ (ks.filter (fun p => sections.any (fun s => s.eq (mk' (some p.1) (some p.2))))).map
      (fun p => (⟨p.1, p.2, F p⟩ : RRow (List TF)))) := by
  induction ks generalizing acc with
  | nil => simpa [importGSLoop] using hacc
  | cons p ps ih =>
    have hp := hpos p List.mem_cons_self
    have hctor : TF.ctor (some p.1) (some p.2) = .ok (mk' (some p.1) (some p.2)) := by
      apply ctor_ok
      intro a b ha hb
      simp only [Option.some.injEq] at ha hb
      omega
    simp only [importGSLoop, importGSKey, hctor]
    by_cases hin : sections.any (fun s => s.eq (mk' (some p.1) (some p.2))) = true
    · rw [if_pos hin, hF p List.mem_cons_self hin]
      simp only
      rw [List.filter_cons_of_pos (by exact hin)] at hpw hlt ⊢
      obtain ⟨w1, w2⟩ := List.pairwise_cons.1 hpw
      obtain ⟨rows', e1, e2, e3⟩ := (C28_append acc hacc (mk' (some p.1) (some p.2)) p.1 p.2 rfl rfl rfl hp (F p)).1
        (fun r hr => Or.inl (hlt r hr p List.mem_cons_self))
      have hok' : RowsOK (acc ++ [⟨p.1, p.2, F p⟩]) := by
        refine ⟨?_, ?_⟩
        · intro r hr
          rcases List.mem_append.1 hr with hr | hr
          · exact hacc.1 r hr
          · rw [List.mem_singleton] at hr; subst hr; exact hp
        · rw [List.pairwise_append]
          refine ⟨hacc.2, by simp, ?_⟩
          intro a ha b hb
          rw [List.mem_singleton] at hb; subst hb
          exact hlt a ha p List.mem_cons_self
      have : rows' = acc ++ [⟨p.1, p.2, F p⟩] :=
        rows_eq_of_perm e2 hok' (e3.trans (List.perm_append_singleton _ _).symm)
      rw [e1, this]
      simp only
      have := ih (fun x hx => hpos x (List.mem_cons_of_mem _ hx)) (fun x hx => hF x (List.mem_cons_of_mem _ hx)) w2 _ hok' (by
        intro r hr x hx
        rcases List.mem_append.1 hr with hr | hr
        · exact hlt r hr x (List.mem_cons_of_mem _ hx)
        · rw [List.mem_singleton] at hr; subst hr; exact w1 x hx)
      simpa using this
    · rw [if_neg hin]
      simp only
      rw [List.filter_cons_of_neg (by exact hin)] at hpw hlt ⊢
      exact ih (fun x hx => hpos x (List.mem_cons_of_mem _ hx)) (fun x hx => hF x (List.mem_cons_of_mem _ hx)) hpw acc hacc hlt

theorem sorted_apart (ks : List (Int × Int)) (h1 : ∀ p ∈ ks, p.1 < p.2) (h2 : ks.Nodup) (h3 : ks.Pairwise keyLe)
    (h4 : ∀ p ∈ ks, ∀ q ∈ ks, p ≠ q → p.2 ≤ q.1 ∨ q.2 ≤ p.1) : ks.Pairwise (fun a b => a.2 ≤ b.1) := by
  have h5 := List.pairwise_and_iff.2 ⟨h2, h3⟩
  refine List.Pairwise.imp_of_mem ?_ h5
  rintro a b ha hb ⟨hn, hk⟩
  have := h1 a ha
  have := h1 b hb
  rcases h4 a ha b hb hn with h | h
  · exact h
  · unfold keyLe at hk; omega

theorem gsGroup_export (rows : List (RRow (List TF))) (h : RowsOK rows) (p : Int × Int) :
    (∀ r ∈ rows, gsPair r = p → gsGroup (exportGS rows) p = exportGSRow r) ∧
    ((∀ r ∈ rows, gsPair r ≠ p) → gsGroup (exportGS rows) p = []) := by
  have hrow : ∀ r : RRow (List TF), gsGroup (exportGSRow r) p = if gsPair r = p then exportGSRow r else [] := by
    intro r
    unfold gsGroup exportGSRow
    split
    · rename_i he
      rw [List.filter_eq_self]
      intro c hc
      obtain ⟨f, _, rfl⟩ := List.mem_map.1 hc
      simpa [gsPair] using he
    · rename_i he
      rw [List.filter_eq_nil_iff]
      intro c hc hd
      obtain ⟨f, _, rfl⟩ := List.mem_map.1 hc
      exact he (by simpa [gsPair] using hd)
  have hsplit : ∀ (r : RRow (List TF)) rs, gsGroup (exportGS (r :: rs)) p =
      (if gsPair r = p then exportGSRow r else []) ++ gsGroup (exportGS rs) p := by
    intro r rs
    rw [← hrow]
    simp [exportGS, gsGroup]
  have hnil : ∀ rs : List (RRow (List TF)), (∀ r ∈ rs, gsPair r ≠ p) → gsGroup (exportGS rs) p = [] := by
    intro rs hrs
    induction rs with
    | nil => rfl
    | cons r rs ih =>
      rw [hsplit, if_neg (hrs r List.mem_cons_self), ih (fun x hx => hrs x (List.mem_cons_of_mem _ hx))]; rfl
  refine ⟨?_, hnil rows⟩
  have hnd := rowsOK_nodup h
  have hkey := @rowsOK_key rows h
  clear h
  induction rows with
  | nil => intro r hr; cases hr
  | cons q qs ih =>
    intro r hr hp
    obtain ⟨n1, n2⟩ := List.nodup_cons.1 hnd
    rw [hsplit]
    rcases List.mem_cons.1 hr with rfl | hr'
    · rw [if_pos hp, hnil qs, List.append_nil]
      intro x hx hxp
      have := hkey (List.mem_cons_of_mem _ hx) hr (hxp.trans hp.symm)
      subst this
      exact n1 hx
    · rw [if_neg, ih n2 (fun ha hb => hkey (List.mem_cons_of_mem _ ha) (List.mem_cons_of_mem _ hb)) r hr' hp]
      · rfl
      · intro hq
        have := hkey List.mem_cons_self hr (hq.trans hp.symm)
        subst this
        exact n1 hr'

theorem mem_gsKeys_export (rows : List (RRow (List TF))) (p : Int × Int) :
    p ∈ gsKeys (exportGS rows) ↔ ∃ r ∈ rows, gsPair r = p ∧ r.val ≠ [] := by
  rw [gsKeys_mem]
  unfold exportGS exportGSRow
  constructor
  · rintro ⟨c, hc, he⟩
    obtain ⟨r, hr, hc⟩ := List.mem_flatMap.1 hc
    obtain ⟨g, hg, rfl⟩ := List.mem_map.1 hc
    exact ⟨r, hr, he, List.ne_nil_of_mem hg⟩
  · rintro ⟨r, hr, he, hv⟩
    obtain ⟨g, hg⟩ := List.exists_mem_of_ne_nil _ hv
    exact ⟨_, List.mem_flatMap.2 ⟨r, hr, List.mem_map.2 ⟨g, hg, rfl⟩⟩, he⟩

theorem find_pair {rows : List (RRow (List TF))} (hok : RowsOK rows) {r : RRow (List TF)} (hr : r ∈ rows) :
    rows.find? (fun q => decide (gsPair q = gsPair r)) = some r := by
  cases hx : rows.find? (fun q => decide (gsPair q = gsPair r)) with
  | none =>
    rw [List.find?_eq_none] at hx
    exact absurd (hx r hr) (by simp)
  | some q =>
    have e := List.find?_some hx
    rw [rowsOK_key hok (List.mem_of_find?_eq_some hx) hr (by simpa using e)]

theorem any_section {ss : List TF} (hs : ∀ s ∈ ss, SecOK s) {p : Int × Int} (hp : p.1 < p.2) :
    ss.any (fun s => s.eq (mk' (some p.1) (some p.2))) = true ↔ p ∈ ss.map secBounds := by
  rw [List.any_eq_true, List.mem_map]
  have hb : secBounds (mk' (some p.1) (some p.2)) = p := rfl
  constructor
  · rintro ⟨s, h, he⟩
    exact ⟨s, h, (secEq_iff (hs s h) ⟨_, _, rfl, rfl, hp, rfl⟩).1 he⟩
  · rintro ⟨s, h, he⟩
    exact ⟨s, h, (secEq_iff (hs s h) ⟨_, _, rfl, rfl, hp, rfl⟩).2 (he.trans hb.symm)⟩

theorem apart_mem {ps : List (Int × Int)} (h : ps.Pairwise (fun p q => p.2 ≤ q.1 ∨ q.2 ≤ p.1)) {a b : Int × Int}
    (ha : a ∈ ps) (hb : b ∈ ps) (hne : a ≠ b) : a.2 ≤ b.1 ∨ b.2 ≤ a.1 := by
  induction ps with
  | nil => cases ha
  | cons r rs ih =>
    obtain ⟨k1, k2⟩ := List.pairwise_cons.1 h
    rcases List.mem_cons.1 ha with ha' | ha' <;> rcases List.mem_cons.1 hb with hb' | hb'
    · exact absurd (ha'.trans hb'.symm) hne
    · subst ha'; exact k1 b hb'
    · subst hb'; exact (k1 a ha').symm
    · exact ih k2 ha' hb'

/-- What holds of the cached table after requests that agree with the data: every period is absent or holds all its
sections. -/
def GSInv (f : Int × Int → List TF) (cached : List GSCacheRow) : Prop :=
  (∀ p ∈ gsKeys cached, p.1 < p.2) ∧
  ∀ p, gsGroup cached p = [] ∨ gsGroup cached p = exportGSRow ⟨p.1, p.2, f p⟩

theorem gsInv_ne {f : Int × Int → List TF} {cached : List GSCacheRow} (h : GSInv f cached) {p : Int × Int}
    (hp : p ∈ gsKeys cached) : f p ≠ [] ∧ gsGroup cached p = exportGSRow ⟨p.1, p.2, f p⟩ := by
  have h1 := (gsGroup_ne cached p).2 hp
  rcases h.2 p with h2 | h2
  · exact absurd h2 h1
  · refine ⟨?_, h2⟩
    intro h3
    rw [h2, h3] at h1
    exact h1 rfl

theorem importGS_inv (f : Int × Int → List TF) (hd : GSData f) (cached : List GSCacheRow) (hc : GSInv f cached)
    (ss : List TF) (hs : ∀ s ∈ ss, SecOK s)
    (hap : (ss.map secBounds).Pairwise (fun p q => p.2 ≤ q.1 ∨ q.2 ≤ p.1)) :
    importGS cached ss = .ok ((freshRows f (ss.map secBounds)).filter (fun r => decide (gsPair r ∈ gsKeys cached))) := by
  have hps : ∀ p ∈ ss.map secBounds, p.1 < p.2 := by
    intro p hp
    obtain ⟨s, h, rfl⟩ := List.mem_map.1 hp
    exact (secOK_bounds (hs s h)).2.2
  have hL := fresh_ok f _ hps hap
  obtain ⟨h1, h2⟩ := importGSLoop_ok cached ss f (gsKeys cached) hc.1
    (by
      intro p hp _
      rw [(gsInv_ne hc hp).2]
      exact gsFrames_export _ _ _ (fun g hg => (hd p g hg).1))
    (by
      apply sorted_apart
      · intro p hp; exact hc.1 p (List.mem_filter.1 hp).1
      · exact (gsKeys_nodup cached).filter _
      · exact (gsKeys_sorted cached).filter _
      · intro p hp q hq hne
        obtain ⟨p1, p2⟩ := List.mem_filter.1 hp
        obtain ⟨q1, q2⟩ := List.mem_filter.1 hq
        exact apart_mem hap ((any_section hs (hc.1 p p1)).1 p2) ((any_section hs (hc.1 q q1)).1 q2) hne)
    [] ⟨by simp, by simp⟩ (by simp)
  unfold importGS
  rw [h1]
  congr 1
  apply rows_eq_of_perm h2 (rowsOK_filter hL _)
  rw [List.perm_ext_iff_of_nodup (rowsOK_nodup h2) (rowsOK_nodup (rowsOK_filter hL _))]
  intro x
  rw [List.nil_append, List.mem_map, List.mem_filter, mem_fresh]
  constructor
  · rintro ⟨p, hp, rfl⟩
    obtain ⟨p1, p2⟩ := List.mem_filter.1 hp
    refine ⟨⟨(any_section hs (hc.1 p p1)).1 p2, (gsInv_ne hc p1).1, rfl⟩, ?_⟩
    exact decide_eq_true p1
  · rintro ⟨⟨x1, x2, x3⟩, x4⟩
    have x4 := of_decide_eq_true x4
    refine ⟨gsPair x, List.mem_filter.2 ⟨x4, (any_section hs (hc.1 _ x4)).2 x1⟩, ?_⟩
    rw [← x3]; rfl

theorem framesOK_fresh {f : Int × Int → List TF} (hd : GSData f) {rows : List (RRow (List TF))}
    (h : ∀ r ∈ rows, r.val = f (gsPair r)) : FramesOK rows := by
  intro r hr g hg
  rw [h r hr] at hg
  obtain ⟨h1, h2⟩ := hd _ g hg
  exact ⟨by rw [h1.1]; rfl, h2⟩

theorem toCompute_perm (ss : List TF) (hs : ∀ s ∈ ss, SecOK s)
    (hap : (ss.map secBounds).Pairwise (fun p q => p.2 ≤ q.1 ∨ q.2 ≤ p.1)) (rows : List (RRow (List TF)))
    (hr : ∀ r ∈ rows, r.start < r.stop) :
    ∃ l, sectionsToCompute ss rows = .ok l ∧ l.Perm (ss.filter (fun s => !decide (secBounds s ∈ rows.map gsPair))) := by
  unfold sectionsToCompute
  rw [timeframes_ok _ hr]
  simp only
  refine ⟨_, rfl, (List.perm_insertionSort _ _).trans ?_⟩
  have hpr : ∀ s ∈ ss, (!((rows.map (fun r => mk' (some r.start) (some r.stop))).any (fun t => s.eq t))) =
      !decide (secBounds s ∈ rows.map gsPair) := by
    intro s hsm
    congr 1
    rw [Bool.eq_iff_iff, List.any_eq_true, decide_eq_true_eq, List.mem_map]
    constructor
    · rintro ⟨t, ht, he⟩
      obtain ⟨r, hrm, rfl⟩ := List.mem_map.1 ht
      exact ⟨r, hrm, ((secEq_iff (hs s hsm) ⟨_, _, rfl, rfl, hr r hrm, rfl⟩).1 he).symm⟩
    · rintro ⟨r, hrm, he⟩
      exact ⟨_, List.mem_map_of_mem hrm, (secEq_iff (hs s hsm) ⟨_, _, rfl, rfl, hr r hrm, rfl⟩).2 he.symm⟩
  rw [List.filter_congr hpr, tfSet_id]
  · intro s h; exact hs s (List.mem_filter.1 h).1
  · apply List.Nodup.sublist ((List.filter_sublist).map _)
    apply periods_nodup _ hap
    intro p hp
    obtain ⟨s, hsm, rfl⟩ := List.mem_map.1 hp
    exact (secOK_bounds (hs s hsm)).2.2

theorem gsInv_store {f : Int × Int → List TF} {cached : List GSCacheRow} (hc : GSInv f cached)
    (rows : List (RRow (List TF))) (hok : RowsOK rows) (hv : ∀ r ∈ rows, r.val = f (gsPair r))
    (hn : ∀ r ∈ rows, gsPair r ∉ gsKeys cached) : GSInv f (cached ++ exportGS rows) := by
  have hg : ∀ p, gsGroup (cached ++ exportGS rows) p = gsGroup cached p ++ gsGroup (exportGS rows) p := by
    intro p; simp [gsGroup]
  constructor
  · intro p hp
    rw [← gsGroup_ne, hg] at hp
    by_cases h : p ∈ gsKeys cached
    · exact hc.1 p h
    · have h0 : gsGroup cached p = [] := by by_contra h1; exact h ((gsGroup_ne _ _).1 h1)
      rw [h0, List.nil_append, gsGroup_ne, mem_gsKeys_export] at hp
      obtain ⟨r, hr, rfl, _⟩ := hp
      exact hok.1 r hr
  · intro p
    rw [hg]
    by_cases h : p ∈ gsKeys cached
    · rw [(gsGroup_export rows hok p).2 (fun r hr he => hn r hr (by rw [he]; exact h)), List.append_nil]
      exact hc.2 p
    · have h0 : gsGroup cached p = [] := by by_contra h1; exact h ((gsGroup_ne _ _).1 h1)
      rw [h0, List.nil_append]
      by_cases hr : ∃ r ∈ rows, gsPair r = p
      · obtain ⟨r, hr, rfl⟩ := hr
        right
        rw [(gsGroup_export rows hok _).1 r hr rfl, ← hv r hr]
        rfl
      · left
        exact (gsGroup_export rows hok p).2 (fun r hx he => hr ⟨r, hx, he⟩)

theorem gsCall_step (msp : Int) (f : Int × Int → List TF) (hd : GSData f) (cached : List GSCacheRow)
    (hc : GSInv f cached) (r : GSReq) (hr : GSGood f r) :
    GSInv f (gsCall msp cached r).1 ∧
    (gsCall msp cached r).1 = cached ++ exportGS ((freshRows f ((r.sections.filter (fun s => !s.empty)).map secBounds)).filter
      (fun x => !decide (gsPair x ∈ gsKeys cached))) ∧
    ∃ fs gs, (gsCall msp cached r).2 = .ok fs ∧ gsDirect msp r = .ok gs ∧ frameBounds fs = frameBounds gs := by
  obtain ⟨hraw, hbd, hap, hcl, hdata⟩ := hr
  unfold gsCall gsDirect
  simp only
  have hs : ∀ s ∈ r.sections.filter (fun s => !s.empty), SecOK s := by
    intro s hs
    obtain ⟨h1, h2⟩ := List.mem_filter.1 hs
    exact hbd s h1 (by simpa using h2)
  have hin : ∀ s ∈ r.sections.filter (fun s => !s.empty), s ∈ r.sections ∧ s.empty = false := by
    intro s hs
    obtain ⟨h1, h2⟩ := List.mem_filter.1 hs
    exact ⟨h1, by simpa using h2⟩
  generalize r.sections.filter (fun s => !s.empty) = ss at hap hcl hs hin
  have hps : ∀ p ∈ ss.map secBounds, p.1 < p.2 := by
    intro p hp
    obtain ⟨s, h, rfl⟩ := List.mem_map.1 hp
    exact (secOK_bounds (hs s h)).2.2
  have hnd := periods_nodup hps hap
  have hL := fresh_ok f _ hps hap
  have hcomp := hdata ss hin hnd
  have hLv : ∀ x ∈ freshRows f (ss.map secBounds), x.val = f (gsPair x) := fun x hx => (mem_fresh.1 hx).2.2
  have hLf := framesOK_fresh hd hLv
  have himp := importGS_inv f hd cached hc ss hs hap
  have hMc := allClosed_filter hcl (fun x => decide (gsPair x ∈ gsKeys cached))
  have hMf : FramesOK ((freshRows f (ss.map secBounds)).filter (fun x => decide (gsPair x ∈ gsKeys cached))) :=
    fun x hx => hLf x (List.mem_filter.1 hx).1
  have hMo := rowsOK_filter hL (fun x => decide (gsPair x ∈ gsKeys cached))
  have hNo := rowsOK_filter hL (fun x => !decide (gsPair x ∈ gsKeys cached))
  rw [hcomp]
  -- the rows left by the first `combined`
  have hafter : afterCombined msp ((freshRows f (ss.map secBounds)).filter (fun x => decide (gsPair x ∈ gsKeys cached))) =
      sealRows ((freshRows f (ss.map secBounds)).filter (fun x => decide (gsPair x ∈ gsKeys cached))) := by
    unfold afterCombined
    rw [combined_closed msp _ hMc hMf]
  have hseal := sealRows_map _ (rowsOK_nodup hMo)
  have hpairs : (sealRows ((freshRows f (ss.map secBounds)).filter (fun x => decide (gsPair x ∈ gsKeys cached)))).map gsPair =
      ((freshRows f (ss.map secBounds)).filter (fun x => decide (gsPair x ∈ gsKeys cached))).map gsPair := by
    rw [hseal, List.map_map]
    apply List.map_congr_left
    intro x _
    simp only [Function.comp]
    split
    · simp [gsPair, sealRow_bounds]
    · rfl
  generalize hLdef : freshRows f (ss.map secBounds) = L at *
  generalize hMdef : L.filter (fun x => decide (gsPair x ∈ gsKeys cached)) = M at *
  generalize hS : (fun x : RRow (List TF) => decide (M.getLast? = some x)) = S
  have hS' : ∀ x, S x = decide (M.getLast? = some x) := by intro x; rw [← hS]
  have hseal' : sealRows M = M.map (fun x => if S x then sealRow x else x) := by
    rw [hseal]; simp only [hS']
  -- sealing some rows keeps their periods
  have hg : ∀ l : List (RRow (List TF)), RowsOK l → RowsOK (l.map (fun x => if S x then sealRow x else x)) := by
    intro l hl
    have hb : ∀ x : RRow (List TF), (if S x then sealRow x else x).start = x.start ∧
        (if S x then sealRow x else x).stop = x.stop := by
      intro x; split
      · exact sealRow_bounds x
      · exact ⟨rfl, rfl⟩
    refine ⟨?_, ?_⟩
    · intro y hy
      obtain ⟨x, hx, rfl⟩ := List.mem_map.1 hy
      rw [(hb x).1, (hb x).2]; exact hl.1 x hx
    · rw [List.pairwise_map]
      refine hl.2.imp ?_
      intro a b h
      rw [(hb a).2, (hb b).1]; exact h
  have hNid : (L.filter (fun x => !decide (gsPair x ∈ gsKeys cached))).map (fun x => if S x then sealRow x else x) =
      L.filter (fun x => !decide (gsPair x ∈ gsKeys cached)) := by
    conv_rhs => rw [← List.map_id (L.filter (fun x => !decide (gsPair x ∈ gsKeys cached)))]
    apply List.map_congr_left
    intro x hx
    obtain ⟨_, h2⟩ := List.mem_filter.1 hx
    have : S x = false := by
      rw [hS']
      apply decide_eq_false
      intro hl
      have := List.mem_of_getLast? hl
      rw [← hMdef] at this
      have h3 := (List.mem_filter.1 this).2
      rw [h3] at h2; cases h2
    rw [this]; rfl
  have hperm : (sealRows M ++ L.filter (fun x => !decide (gsPair x ∈ gsKeys cached))).Perm
      (L.map (fun x => if S x then sealRow x else x)) := by
    rw [hseal', ← hNid, ← List.map_append, ← hMdef]
    exact (List.filter_append_perm _ L).map _
  have hRo := hg L hL
  have hMseal : RowsOK (sealRows M) := by rw [hseal']; exact hg M hMo
  have hfin : simpleGS msp (L.map (fun x => if S x then sealRow x else x)) =
      .ok (((sealRows (L.map (fun x => if S x then sealRow x else x))).map RRow.val).flatten) := by
    unfold simpleGS
    rw [combined_closed msp _ (allClosed_seal hcl hLf S) (framesOK_seal hLf S)]
  have hdir : simpleGS msp L = .ok (((sealRows L).map RRow.val).flatten) := by
    unfold simpleGS
    rw [combined_closed msp _ hcl hLf]
  have hbounds := sealRows_bounds L hcl hLf S
  obtain ⟨l, hl1, hl2⟩ := toCompute_perm ss hs hap (sealRows M) hMseal.1
  have hplan : planGS msp cached ss r.preprocessing = .ok (sealRows M, l) := by
    unfold planGS
    rw [hraw, himp]
    simp only [Bool.false_eq_true, if_false]
    rw [hafter, hl1]
  rw [hplan]
  have hlmem : ∀ s ∈ l, s ∈ ss ∧ secBounds s ∉ M.map gsPair := by
    intro s h
    have := List.mem_filter.1 (hl2.mem_iff.1 h)
    rw [hpairs] at this
    exact ⟨this.1, by simpa using this.2⟩
  have hlnd : (l.map secBounds).Nodup :=
    ((hl2.map secBounds).nodup_iff).2 (hnd.sublist ((List.filter_sublist).map _))
  have hlap : (l.map secBounds).Pairwise (fun p q => p.2 ≤ q.1 ∨ q.2 ≤ p.1) :=
    ((hl2.map secBounds).pairwise_iff (fun h => Or.symm h)).2 (hap.sublist ((List.filter_sublist).map _))
  have hlc := hdata l (fun s h => hin s (hlmem s h).1) hlnd
  have hNeq : freshRows f (l.map secBounds) = L.filter (fun x => !decide (gsPair x ∈ gsKeys cached)) := by
    have h1 : RowsOK (freshRows f (l.map secBounds)) := by
      apply fresh_ok _ _ _ hlap
      intro p hp
      obtain ⟨s, h, rfl⟩ := List.mem_map.1 hp
      exact hps _ (List.mem_map_of_mem (hlmem s h).1)
    apply rows_eq_of_perm h1 hNo
    rw [List.perm_ext_iff_of_nodup (rowsOK_nodup h1) (rowsOK_nodup hNo)]
    intro x
    rw [mem_fresh, List.mem_filter, ← hLdef, mem_fresh]
    constructor
    · rintro ⟨x1, x2, x3⟩
      obtain ⟨s, h, he⟩ := List.mem_map.1 x1
      obtain ⟨k1, k2⟩ := hlmem s h
      refine ⟨⟨by rw [← he]; exact List.mem_map_of_mem k1, x2, x3⟩, ?_⟩
      simp only [Bool.not_eq_true', decide_eq_false_iff_not]
      intro hk
      apply k2
      rw [he, ← hMdef]
      refine List.mem_map_of_mem (List.mem_filter.2 ⟨?_, decide_eq_true hk⟩)
      rw [← hLdef, mem_fresh]
      exact ⟨by rw [← he]; exact List.mem_map_of_mem k1, x2, x3⟩
    · rintro ⟨⟨x1, x2, x3⟩, x4⟩
      simp only [Bool.not_eq_true', decide_eq_false_iff_not] at x4
      refine ⟨?_, x2, x3⟩
      obtain ⟨s, h, he⟩ := List.mem_map.1 x1
      rw [← he]
      refine List.mem_map_of_mem (hl2.mem_iff.2 (List.mem_filter.2 ⟨h, ?_⟩))
      rw [hpairs, he]
      simp only [Bool.not_eq_true', decide_eq_false_iff_not]
      intro hm
      obtain ⟨y, hy, hye⟩ := List.mem_map.1 hm
      rw [← hMdef] at hy
      have := of_decide_eq_true (List.mem_filter.1 hy).2
      rw [hye] at this
      exact x4 this
  cases l with
  | nil =>
    have hN0 : L.filter (fun x => !decide (gsPair x ∈ gsKeys cached)) = [] := by
      rw [← hNeq]; rfl
    rw [hN0, List.append_nil] at hperm
    have : sealRows M = L.map (fun x => if S x then sealRow x else x) := rows_eq_of_perm hMseal hRo hperm
    simp only
    rw [this]
    refine ⟨hc, ?_, _, _, hfin, hdir, hbounds⟩
    rw [hN0]; simp [exportGS]
  | cons s0 l0 =>
    simp only
    rw [hlc, hNeq]
    simp only
    have hdis : ∀ a ∈ sealRows M, ∀ b ∈ L.filter (fun x => !decide (gsPair x ∈ gsKeys cached)), Apart a b := by
      have h1 : (sealRows M ++ L.filter (fun x => !decide (gsPair x ∈ gsKeys cached))).Pairwise Apart :=
        (hperm.pairwise_iff (fun h => Or.symm h)).2 (rowsOK_apart hRo)
      exact (List.pairwise_append.1 h1).2.2
    obtain ⟨u1, u2, u3⟩ := (C29_update _ _ hMseal hNo).1 hdis
    have u4 := rows_eq_of_perm u2 hRo (u3.trans hperm)
    have u5 : Results.update (sealRows M) (L.filter (fun x => !decide (gsPair x ∈ gsKeys cached))) =
        (L.map (fun x => if S x then sealRow x else x), none) := Prod.ext u4 u1
    rw [u5]
    simp only
    refine ⟨gsInv_store hc _ hNo (fun x hx => hLv x (List.mem_filter.1 hx).1) ?_, trivial, _, _, hfin, hdir, hbounds⟩
    intro x hx
    simpa using (List.mem_filter.1 hx).2

/-! ### C80 -/

/-- C80. What was exported is read back: of the rows in a table, import gives those that hold a section and whose period
is asked for, with the same sections. -/
theorem C80_roundtrip (rows : List (RRow (List TF))) (hok : RowsOK rows)
    (hp : ∀ r ∈ rows, ∀ g ∈ r.val, PlainFrame g) (sections : List TF) :
    importGS (exportGS rows) sections = .ok (rows.filter (fun r => !r.val.isEmpty &&
      sections.any (fun s => s.eq (mk' (some r.start) (some r.stop))))) := by
  have hval : ∀ p ∈ gsKeys (exportGS rows), ∃ r ∈ rows, gsPair r = p ∧ r.val ≠ [] := fun p h =>
    (mem_gsKeys_export rows p).1 h
  have hpos : ∀ p ∈ gsKeys (exportGS rows), p.1 < p.2 := by
    intro p h
    obtain ⟨r, hr, rfl, _⟩ := hval p h
    exact hok.1 r hr
  have hap : (gsKeys (exportGS rows)).Pairwise (fun a b => a.2 ≤ b.1) := by
    apply sorted_apart _ hpos (gsKeys_nodup _) (gsKeys_sorted _)
    intro p h q h' hne
    obtain ⟨r, hr, rfl, _⟩ := hval p h
    obtain ⟨t, ht, rfl, _⟩ := hval q h'
    exact rowsOK_apart_mem hok hr ht (fun he => hne (by rw [he]))
  obtain ⟨h1, h2⟩ := importGSLoop_ok (exportGS rows) sections
    (fun p => ((rows.find? (fun r => decide (gsPair r = p))).map RRow.val).getD []) (gsKeys (exportGS rows)) hpos
    (by
      intro p h _
      obtain ⟨r, hr, rfl, hv⟩ := hval p h
      rw [(gsGroup_export rows hok _).1 r hr rfl, find_pair hok hr]
      exact gsFrames_export r.start r.stop r.val (hp r hr))
    (hap.filter _) [] ⟨by simp, by simp⟩ (by simp)
  unfold importGS
  rw [h1]
  congr 1
  apply rows_eq_of_perm h2 (rowsOK_filter hok _)
  rw [List.perm_ext_iff_of_nodup (rowsOK_nodup h2) (rowsOK_nodup (rowsOK_filter hok _))]
  intro x
  rw [List.nil_append, List.mem_map, List.mem_filter]
  constructor
  · rintro ⟨p, hpm, rfl⟩
    obtain ⟨k1, k2⟩ := List.mem_filter.1 hpm
    obtain ⟨r, hr, rfl, hv⟩ := hval p k1
    rw [find_pair hok hr]
    exact ⟨hr, by simpa [hv] using k2⟩
  · rintro ⟨hx, hc⟩
    simp only [Bool.and_eq_true, Bool.not_eq_true', List.isEmpty_eq_false_iff] at hc
    refine ⟨gsPair x, List.mem_filter.2 ⟨(mem_gsKeys_export rows _).2 ⟨x, hx, rfl, hc.1⟩, hc.2⟩, ?_⟩
    rw [find_pair hok hx]; rfl

/-- C80, partial: from an empty cache, whatever requests were made before, every call of `good_sections` returns sections
with the bounds that a computation without cache gives, provided the requested periods share no instant, each period has
its own sections, and none of them is open towards a later period. Missing: `include_end` of the sections, periods loaded in
several chunks, adjacent periods crossed by a section, calls with preprocessing (see the counterexamples). -/
theorem C80_transparent_partial (msp : Int) (f : Int × Int → List TF) (hd : GSData f) (rs : List GSReq)
    (hrs : ∀ r ∈ rs, GSGood f r) :
    List.Forall₂ (fun out r => ∃ fs gs, out = .ok fs ∧ gsDirect msp r = .ok gs ∧ frameBounds fs = frameBounds gs)
      (runGS msp [] rs) rs := by
  have h0 : GSInv f [] := ⟨by simp [gsKeys], fun p => Or.inl rfl⟩
  generalize ([] : List GSCacheRow) = cached at h0
  induction rs generalizing cached with
  | nil => exact .nil
  | cons r rs ih =>
    obtain ⟨h1, _, h2⟩ := gsCall_step msp f hd cached h0 r (hrs r List.mem_cons_self)
    exact .cons h2 (ih (fun x hx => hrs x (List.mem_cons_of_mem _ hx)) _ h1)

theorem gsKeys_append (a b : List GSCacheRow) (p : Int × Int) :
    p ∈ gsKeys (a ++ b) ↔ p ∈ gsKeys a ∨ p ∈ gsKeys b := by
  simp only [gsKeys_mem, List.mem_append, or_and_right, exists_or]

theorem exportGS_nil : exportGS [] = [] := rfl

/-- C80. Nothing is stored twice: repeating any earlier request leaves the cached table as it is. -/
theorem C80_repeat (msp : Int) (f : Int × Int → List TF) (hd : GSData f) (rs : List GSReq) (hrs : ∀ r ∈ rs, GSGood f r)
    (r : GSReq) (hr : r ∈ rs) :
    (gsCall msp (rs.foldl (fun c r => (gsCall msp c r).1) []) r).1 = rs.foldl (fun c r => (gsCall msp c r).1) [] := by
  have key : ∀ (rs : List GSReq), (∀ r ∈ rs, GSGood f r) → ∀ cached, GSInv f cached →
      GSInv f (rs.foldl (fun c r => (gsCall msp c r).1) cached) ∧
      (∀ p ∈ gsKeys cached, p ∈ gsKeys (rs.foldl (fun c r => (gsCall msp c r).1) cached)) ∧
      ∀ r ∈ rs, ∀ x ∈ freshRows f ((r.sections.filter (fun s => !s.empty)).map secBounds),
        gsPair x ∈ gsKeys (rs.foldl (fun c r => (gsCall msp c r).1) cached) := by
    intro rs
    induction rs with
    | nil => intro _ cached hc; exact ⟨hc, fun p h => h, by simp⟩
    | cons q qs ih =>
      intro hq cached hc
      obtain ⟨h1, h2, _⟩ := gsCall_step msp f hd cached hc q (hq q List.mem_cons_self)
      obtain ⟨i1, i2, i3⟩ := ih (fun x hx => hq x (List.mem_cons_of_mem _ hx)) _ h1
      simp only [List.foldl_cons]
      refine ⟨i1, ?_, ?_⟩
      · intro p hp
        apply i2
        rw [h2, gsKeys_append]; exact Or.inl hp
      · intro y hy x hx
        rcases List.mem_cons.1 hy with rfl | hy
        · apply i2
          rw [h2, gsKeys_append]
          by_cases hk : gsPair x ∈ gsKeys cached
          · exact Or.inl hk
          · refine Or.inr ((mem_gsKeys_export _ _).2 ⟨x, List.mem_filter.2 ⟨hx, by simpa using hk⟩, rfl, (mem_fresh.1 hx).2.1⟩)
        · exact i3 y hy x hx
  obtain ⟨k1, _, k3⟩ := key rs hrs [] ⟨by simp [gsKeys], fun p => Or.inl rfl⟩
  obtain ⟨_, h2, _⟩ := gsCall_step msp f hd _ k1 r (hrs r hr)
  rw [h2]
  have : (freshRows f ((r.sections.filter (fun s => !s.empty)).map secBounds)).filter (fun x =>
      !decide (gsPair x ∈ gsKeys (rs.foldl (fun c r => (gsCall msp c r).1) []))) = [] := by
    rw [List.filter_eq_nil_iff]
    intro x hx
    simpa using k3 r hr x hx
  rw [this, exportGS_nil, List.append_nil]

/-- C80: the assumption on the computation, from the code: a load with one chunk per section, each of whose sections are
closed, stores one row per section that has good sections. -/
theorem C80_compute {α : Type} (msp : Int) (f : Int × Int → List TF) (load : List TF → Gen (Chunk (Option α))) (ss : List TF)
    (hs : ∀ s ∈ ss, SecOK s) (hap : (ss.map secBounds).Pairwise (fun p q => p.2 ≤ q.1 ∨ q.2 ≤ p.1))
    (herr : (load ss).err = none)
    (hch : List.Forall₂ (fun c s => c.timeframe = s ∧ getGoodSections msp c.rows c.look false = .ok (f (secBounds s)) ∧
      ∀ g, (f (secBounds s)).getLast? = some g → g.stop ≠ none) (load ss).out ss) :
    gsCompute msp load ss = .ok (freshRows f (ss.map secBounds)) := by
  have hps : ∀ p ∈ ss.map secBounds, p.1 < p.2 := by
    intro p hp
    obtain ⟨s, h, rfl⟩ := List.mem_map.1 hp
    exact (secOK_bounds (hs s h)).2.2
  have hL := fresh_ok f _ hps hap
  have key : ∀ (cs : List (Chunk (Option α))) (ss : List TF), List.Forall₂ (fun c s => c.timeframe = s ∧
      getGoodSections msp c.rows c.look false = .ok (f (secBounds s)) ∧
      ∀ g, (f (secBounds s)).getLast? = some g → g.stop ≠ none) cs ss → (∀ s ∈ ss, SecOK s) →
      (ss.map secBounds).Pairwise (fun p q => p.2 ≤ q.1 ∨ q.2 ≤ p.1) → ∀ acc : List (RRow (List TF)), RowsOK acc →
      (∀ s ∈ ss, ∀ x ∈ acc, x.stop ≤ (secBounds s).1 ∨ (secBounds s).2 ≤ x.start) →
      ∃ rows, processChunks msp ⟨false, acc⟩ cs = .ok ⟨false, rows⟩ ∧ RowsOK rows ∧
        rows.Perm (acc ++ freshRows f (ss.map secBounds)) := by
    intro cs ss h
    induction h with
    | nil => intro _ _ acc ha _; exact ⟨acc, rfl, ha, by simp [freshRows, sortRows]⟩
    | @cons c s cs ss hc _ ih =>
      intro hs hap acc ha hfree
      obtain ⟨ht, hgs, hlast⟩ := hc
      rw [List.map_cons] at hap
      obtain ⟨a1, a2⟩ := List.pairwise_cons.1 hap
      have hs' : ∀ x ∈ ss, SecOK x := fun x hx => hs x (List.mem_cons_of_mem _ hx)
      have hperm : ∀ v, f (secBounds s) = v → v ≠ [] → (freshRows f ((s :: ss).map secBounds)).Perm
          (⟨(secBounds s).1, (secBounds s).2, v⟩ :: freshRows f (ss.map secBounds)) := by
        intro v hv hn
        unfold freshRows
        refine (sortRows_perm _).trans ?_
        rw [List.map_cons, List.filter_cons_of_pos (by simpa [hv] using hn), List.map_cons, hv]
        exact List.Perm.cons _ (sortRows_perm _).symm
      have hnil : f (secBounds s) = [] → freshRows f ((s :: ss).map secBounds) = freshRows f (ss.map secBounds) := by
        intro hv
        unfold freshRows
        rw [List.map_cons, List.filter_cons_of_neg (by simp [hv])]
      rw [processChunks, processChunk, hgs]
      cases hv : f (secBounds s) with
      | nil =>
        simp only
        rw [hnil hv]
        exact ih hs' a2 acc ha (fun x hx => hfree x (List.mem_cons_of_mem _ hx))
      | cons g gs =>
        simp only
        obtain ⟨b1, b2, b3⟩ := secOK_bounds (hs s List.mem_cons_self)
        have b4 : s.empty = false := by
          obtain ⟨_, _, _, _, _, h⟩ := hs s List.mem_cons_self
          exact h
        obtain ⟨acc', e1, e2, e3⟩ := (C28_append acc ha c.timeframe _ _ (by rw [ht]; exact b1) (by rw [ht]; exact b2)
          (by rw [ht]; exact b4) b3 (g :: gs)).1 (fun x hx => hfree s List.mem_cons_self x hx)
        have hflag : ((g :: gs).getLast?.bind TF.stop).isNone = false := by
          cases hl : (g :: gs).getLast? with
          | none => simp at hl
          | some z =>
            have := hlast z (by rw [hv]; exact hl)
            simp only [Option.bind_some]
            cases hz : z.stop with
            | none => exact absurd hz this
            | some _ => rfl
        rw [e1]
        simp only [hflag]
        obtain ⟨rows, r1, r2, r3⟩ := ih hs' a2 acc' e2 (by
          intro x hx y hy
          rcases List.mem_cons.1 (e3.mem_iff.1 hy) with rfl | hy
          · exact a1 _ (List.mem_map_of_mem hx)
          · exact hfree x (List.mem_cons_of_mem _ hx) y hy)
        refine ⟨rows, r1, r2, r3.trans ?_⟩
        refine ((e3.append_right _).trans ?_).trans ((hperm _ hv (by simp)).symm.append_left acc)
        rw [List.cons_append]
        exact List.perm_middle.symm
  obtain ⟨rows, h1, h2, h3⟩ := key _ _ hch hs hap [] ⟨by simp, by simp⟩ (by simp)
  unfold gsCompute
  rw [h1, herr]
  simp only
  rw [rows_eq_of_perm h2 hL (by simpa using h3)]

/-- C80: an exception of the load or of the node reaches the caller, and then nothing is stored. -/
theorem C80_compute_error {α : Type} (msp : Int) (load : List TF → Gen (Chunk (Option α))) (ss : List TF) :
    (∀ e, (load ss).err = some e → ∃ e', gsCompute msp load ss = .error e') ∧
    (∀ e, processChunks msp ⟨false, []⟩ (load ss).out = .error e → gsCompute msp load ss = .error e) ∧
    (∀ e st, (load ss).err = some e → processChunks msp ⟨false, []⟩ (load ss).out = .ok st →
      gsCompute msp load ss = .error e) := by
  unfold gsCompute
  refine ⟨?_, ?_, ?_⟩
  · intro e h
    cases processChunks msp ⟨false, []⟩ (load ss).out with
    | error x => exact ⟨x, rfl⟩
    | ok st => rw [h]; exact ⟨e, rfl⟩
  · intro e h; rw [h]
  · intro e st h1 h2; rw [h2, h1]

/-- C80. The table only grows, and only by the rows of a computation that succeeded, of sections asked for. -/
theorem C80_append_only (msp : Int) (cached : List GSCacheRow) (r : GSReq) :
    (gsCall msp cached r).1 = cached ∨
    ∃ sub rows, sub ≠ [] ∧ (∀ s ∈ sub, s ∈ r.sections ∧ s.empty = false) ∧ r.compute sub = .ok rows ∧
      (gsCall msp cached r).1 = cached ++ exportGS rows := by
  have htf : ∀ l : List TF, ∀ s ∈ tfSet l, s ∈ l := by
    intro l
    induction l with
    | nil => intro s h; cases h
    | cons a l ih =>
      intro s h
      unfold tfSet at h
      split at h
      · exact List.mem_cons_of_mem _ (ih s h)
      · rcases List.mem_cons.1 h with rfl | h
        · exact List.mem_cons_self
        · exact List.mem_cons_of_mem _ (ih s h)
  have hplan : ∀ rows l, planGS msp cached (r.sections.filter (fun s => !s.empty)) r.preprocessing = .ok (rows, l) →
      ∀ s ∈ l, s ∈ r.sections ∧ s.empty = false := by
    intro rows l h s hs
    have hm : s ∈ r.sections.filter (fun s => !s.empty) := by
      unfold planGS at h
      split at h
      · simp only [Except.ok.injEq, Prod.mk.injEq] at h
        rw [h.2]; exact hs
      · split at h
        · cases h
        · split at h
          · cases h
          · rename_i ss hss
            simp only [Except.ok.injEq, Prod.mk.injEq] at h
            obtain ⟨_, rfl⟩ := h
            unfold sectionsToCompute at hss
            split at hss
            · cases hss
            · simp only [Except.ok.injEq] at hss
              subst hss
              have := htf _ s ((List.perm_insertionSort _ _).mem_iff.1 hs)
              exact (List.mem_filter.1 this).1
    obtain ⟨h1, h2⟩ := List.mem_filter.1 hm
    exact ⟨h1, by simpa using h2⟩
  unfold gsCall
  simp only
  cases hp : planGS msp cached (r.sections.filter (fun s => !s.empty)) r.preprocessing with
  | error e => exact Or.inl rfl
  | ok x =>
    obtain ⟨rows, l⟩ := x
    have hl := hplan rows l hp
    cases l with
    | nil => exact Or.inl rfl
    | cons s ss =>
      simp only
      cases hc : r.compute (s :: ss) with
      | error e => exact Or.inl rfl
      | ok computed =>
        simp only
        cases hu : Results.update rows computed with
        | mk d e =>
          cases e with
          | some e => exact Or.inl rfl
          | none => exact Or.inr ⟨s :: ss, computed, by simp, hl, hc, rfl⟩

/-- C80. A call with preprocessing does not look at the cache. -/
theorem C80_preprocessing (msp : Int) (cached : List GSCacheRow) (r : GSReq) (hr : r.preprocessing = true)
    (hne : ∃ s ∈ r.sections, s.empty = false)
    (hok : ∀ rows, r.compute (r.sections.filter (fun s => !s.empty)) = .ok rows → RowsOK rows) :
    (gsCall msp cached r).2 = gsDirect msp r := by
  unfold gsCall gsDirect planGS
  rw [hr]
  simp only [if_true]
  have hn : r.sections.filter (fun s => !s.empty) ≠ [] := by
    obtain ⟨s, h1, h2⟩ := hne
    exact List.ne_nil_of_mem (List.mem_filter.2 ⟨h1, by simp [h2]⟩)
  cases hl : r.sections.filter (fun s => !s.empty) with
  | nil => exact absurd hl hn
  | cons s ss =>
    rw [hl] at hok
    simp only
    cases hc : r.compute (s :: ss) with
    | error e => rfl
    | ok rows =>
      simp only
      have hk := hok rows hc
      obtain ⟨u1, u2, u3⟩ := (C29_update [] rows ⟨by simp, by simp⟩ hk).1 (by simp)
      have u4 := rows_eq_of_perm u2 hk (by simpa using u3)
      have u5 : Results.update [] rows = (rows, none) := Prod.ext u4 u1
      rw [u5]

/-! ### What is false -/

/-- Readings every 10 without a hole. -/
def gapless : List (Row (Option Nat)) :=
  [(0, some 1), (10, some 2), (20, some 3), (30, some 4), (40, some 5), (50, some 5), (60, some 6), (70, some 6)]

/-- A request on these readings. -/
def gaplessReq (chunk : Nat) (sections : List TF) : GSReq :=
  ⟨sections, false, gsCompute 10 (fun ss => (hdfLoad (some gapless) TF.blank (some ss) 10 chunk).1)⟩

theorem combineRest_prefix (msp : Int) (row : RRow (List TF)) (post : List (RRow (List TF))) (acc' : List (RRow (List TF))) (e : Int)
    (x : Err) (hm : mergeRow msp acc' e row = .error x) :
    ∀ (pre acc : List (RRow (List TF))) (prev : Option Int), combineLoop msp acc prev pre = .ok (acc', some e) →
    combineLoop msp acc prev (pre ++ row :: post) = .error x ∧
    combineRest msp acc prev (pre ++ row :: post) = acc' ++ row :: post := by
  intro pre
  induction pre with
  | nil =>
    intro acc prev h
    simp only [combineLoop, Except.ok.injEq, Prod.mk.injEq] at h
    obtain ⟨rfl, rfl⟩ := h
    simp only [List.nil_append, combineLoop, combineRest, hm, and_self]
  | cons q pre ih =>
    intro acc prev h
    cases prev with
    | none => exact ih _ _ h
    | some e' =>
      simp only [List.cons_append, combineLoop, combineRest] at h ⊢
      cases hq : mergeRow msp acc e' q with
      | error y => rw [hq] at h; cases h
      | ok r => rw [hq] at h; exact ih _ _ h

/-- C80. When combining the cached rows raises, the object keeps the rows before the raising one as combining them alone leaves
them, and the raising row and the later ones untouched. -/
theorem C80_raising (msp : Int) (pre post : List (RRow (List TF))) (row : RRow (List TF)) (acc : List (RRow (List TF))) (e : Int)
    (x : Err) (hpre : combineLoop msp [] none pre = .ok (acc, some e)) (hm : mergeRow msp acc e row = .error x) :
    combined msp (pre ++ row :: post) = .error x ∧ afterCombined msp (pre ++ row :: post) = acc ++ row :: post := by
  obtain ⟨h1, h2⟩ := combineRest_prefix msp row post acc e x hm pre [] none hpre
  have h3 : combined msp (pre ++ row :: post) = .error x := by
    unfold combined
    rw [h1]
  refine ⟨h3, ?_⟩
  unfold afterCombined
  rw [h3, h1]
  exact h2

/-- The hypotheses of `C80_raising` are met: the first row ends with an open section and the second is closed there; the third
claims that the closed section goes on. -/
example :
    let pre : List (RRow (List TF)) := [⟨0, 10, [TF.mk' (some 2) none]⟩, ⟨10, 20, [TF.mk' none (some 15)]⟩]
    let row : RRow (List TF) := ⟨20, 30, [TF.mk' none (some 25)]⟩
    combineLoop 1 [] none pre = .ok ([⟨0, 10, [TF.mk' (some 2) (some 15)]⟩, ⟨10, 20, []⟩], some 20) ∧
    mergeRow 1 [⟨0, 10, [TF.mk' (some 2) (some 15)]⟩, ⟨10, 20, []⟩] 20 row = .error .assertionError := by
  decide +kernel

/-- C80 is false for adjacent periods crossed by a good section: the first call returns the section, and the same call
again raises `IndexError`, because `combined()` runs twice on the cached rows. -/
theorem C80_adjacent_counterexample :
    let r := gaplessReq 100 [mk' (some 0) (some 35), mk' (some 35) (some 75)]
    runGS 10 [] [r, r] = [.ok [{ mk' (some 0) (some 70) with includeEnd := true }], .error .indexError] := by
  decide +kernel

/-- C80 is false for `include_end`: the section of a period that was asked for alone before has it set, although it is
not the last one. -/
theorem C80_include_end_counterexample :
    let r := gaplessReq 100 [mk' (some 0) (some 35), mk' (some 40) (some 75)]
    gsDirect 10 r = .ok [mk' (some 0) (some 35), { mk' (some 40) (some 70) with includeEnd := true }] ∧
    runGS 10 [] [gaplessReq 100 [mk' (some 0) (some 35)], r] =
      [.ok [{ mk' (some 0) (some 35) with includeEnd := true }],
       .ok [{ mk' (some 0) (some 35) with includeEnd := true }, { mk' (some 40) (some 70) with includeEnd := true }]] := by
  decide +kernel

/-- C80 is false for a period loaded in several chunks: it is not found in the cache, so that its rows are stored again by
every call, and a later request for one of the chunks returns its section twice, the first time without an end. -/
theorem C80_chunks_counterexample :
    let r := gaplessReq 3 [mk' (some 0) (some 75)]
    let q := gaplessReq 3 [mk' (some 0) (some 30)]
    (gsCall 10 [] r).1.length = 3 ∧ (gsCall 10 (gsCall 10 [] r).1 r).1.length = 6 ∧
    gsDirect 10 q = .ok [{ mk' (some 0) (some 30) with includeEnd := true }] ∧
    runGS 10 [] [r, r, q] = [.ok [{ mk' (some 0) (some 70) with includeEnd := true }],
      .ok [{ mk' (some 0) (some 70) with includeEnd := true }],
      .ok [mk' (some 0) none, { mk' (some 0) (some 30) with includeEnd := true }]] := by
  decide +kernel

/-- C80 is false after a call with preprocessing: it does not read the cache but writes it, and a later call without
preprocessing returns what it stored. -/
theorem C80_preprocessing_counterexample :
    let thin : GSReq := ⟨[mk' (some 0) (some 75)], true, gsCompute 10 (fun ss =>
      (hdfLoad (some [(0, some 1), (10, some 2), (50, some 3), (60, some (4 : Nat))]) TF.blank (some ss) 10 100).1)⟩
    let r := gaplessReq 100 [mk' (some 0) (some 75)]
    gsDirect 10 r = .ok [{ mk' (some 0) (some 70) with includeEnd := true }] ∧
    runGS 10 [] [thin, r] =
      [.ok [mk' (some 0) (some 10), { mk' (some 50) (some 60) with includeEnd := true }],
       .ok [mk' (some 0) (some 10), { mk' (some 50) (some 60) with includeEnd := true }]] := by
  decide +kernel

/-! ### Examples -/

/-- The sections of two periods, and of no other. -/
def exSecs (p : Int × Int) : List TF :=
  if p = (0, 100) then [mk' (some 0) (some 40), mk' (some 60) (some 90)]
  else if p = (200, 300) then [mk' (some 210) none] else []

/-- A request for a list of periods. -/
def exGSReq (ps : List (Int × Int)) : GSReq :=
  ⟨ps.map (fun p => mk' (some p.1) (some p.2)), false, fun ss => .ok (freshRows exSecs (ss.map secBounds))⟩

theorem exSecs_data : GSData exSecs := by
  intro p g hg
  unfold exSecs at hg
  split at hg
  · rename_i h
    subst h
    simp only [List.mem_cons, List.not_mem_nil, or_false] at hg
    rcases hg with rfl | rfl
    · exact ⟨⟨rfl, by simp [mk', TF.start, TF.stop]⟩, by simp [mk', TF.start, TF.stop]⟩
    · exact ⟨⟨rfl, by simp [mk', TF.start, TF.stop]⟩, by simp [mk', TF.start, TF.stop]⟩
  · split at hg
    · rename_i h
      subst h
      simp only [List.mem_cons, List.not_mem_nil, or_false] at hg
      subst hg
      exact ⟨⟨rfl, by simp [mk', TF.start, TF.stop]⟩, by simp [mk', TF.start, TF.stop]⟩
    · cases hg

theorem exGS_one : GSGood exSecs (exGSReq [(0, 100)]) where
  raw := rfl
  bounded := by
    intro s hs _
    simp only [exGSReq, List.map_cons, List.map_nil, List.mem_singleton] at hs
    subst hs
    exact ⟨0, 100, rfl, rfl, by omega, rfl⟩
  apart := by simp [exGSReq, mk']
  closed := ⟨_, _, rfl, by simp [mk', TF.start]⟩
  data := fun _ _ _ => rfl

theorem exGS_two : GSGood exSecs (exGSReq [(200, 300), (0, 100), (400, 500)]) where
  raw := rfl
  bounded := by
    intro s hs _
    simp only [exGSReq, List.map_cons, List.map_nil, List.mem_cons, List.not_mem_nil, or_false] at hs
    rcases hs with rfl | rfl | rfl
    · exact ⟨200, 300, rfl, rfl, by omega, rfl⟩
    · exact ⟨0, 100, rfl, rfl, by omega, rfl⟩
    · exact ⟨400, 500, rfl, rfl, by omega, rfl⟩
  apart := by decide +kernel
  closed := by
    have : freshRows exSecs (((exGSReq [(200, 300), (0, 100), (400, 500)]).sections.filter (fun s => !s.empty)).map
        secBounds) = [⟨0, 100, [mk' (some 0) (some 40), mk' (some 60) (some 90)]⟩, ⟨200, 300, [mk' (some 210) none]⟩] := by
      decide +kernel
    rw [this]
    exact ⟨⟨_, _, rfl, by simp [mk', TF.start]⟩, ⟨_, rfl, by simp [mk', TF.stop]⟩, _, _, rfl, by simp [mk', TF.start]⟩
  data := fun _ _ _ => rfl

example := C80_transparent_partial 10 exSecs exSecs_data
  [exGSReq [(0, 100)], exGSReq [(200, 300), (0, 100), (400, 500)], exGSReq [(0, 100)]] (by
    intro r hr
    simp only [List.mem_cons, List.not_mem_nil, or_false] at hr
    rcases hr with rfl | rfl | rfl
    · exact exGS_one
    · exact exGS_two
    · exact exGS_one)

example := C80_repeat 10 exSecs exSecs_data [exGSReq [(0, 100)], exGSReq [(200, 300), (0, 100), (400, 500)]] (by
    intro r hr
    simp only [List.mem_cons, List.not_mem_nil, or_false] at hr
    rcases hr with rfl | rfl
    · exact exGS_one
    · exact exGS_two) (exGSReq [(0, 100)]) List.mem_cons_self

example : (runGS 10 [] [exGSReq [(0, 100)], exGSReq [(200, 300), (0, 100), (400, 500)]]).map (fun x => x.toOption.map frameBounds) =
    [some [(some 0, some 40), (some 60, some 90)],
     some [(some 0, some 40), (some 60, some 90), (some 210, some 300)]] := by decide +kernel

example := C80_roundtrip [⟨0, 100, exSecs (0, 100)⟩, ⟨150, 160, []⟩, ⟨200, 300, exSecs (200, 300)⟩]
  ⟨by simp, by simp⟩ (by
    intro r hr g hg
    simp only [List.mem_cons, List.not_mem_nil, or_false] at hr
    rcases hr with rfl | rfl | rfl
    · exact (exSecs_data (0, 100) g hg).1
    · cases hg
    · exact (exSecs_data (200, 300) g hg).1) [mk' (some 200) (some 300), mk' (some 0) (some 50)]

/-- One chunk with two readings runs. -/
def exLoad (ss : List TF) : Gen (Chunk (Option Nat)) :=
  ⟨ss.map (fun s => ⟨[(0, some 1), (10, some 1), (50, some 1), (60, some 2)], s, none⟩), none⟩

example : gsCompute 10 exLoad [mk' (some 0) (some 100)] =
    .ok (freshRows (fun _ => [mk' (some 0) (some 10), mk' (some 50) (some 60)]) [(0, 100)]) :=
  C80_compute 10 _ exLoad [mk' (some 0) (some 100)]
    (by intro s hs; rw [List.mem_singleton] at hs; subst hs; exact ⟨0, 100, rfl, rfl, by omega, rfl⟩) (by simp) rfl
    (.cons ⟨rfl, (by decide +kernel), (by
      intro g hg
      simp only [List.getLast?_cons_cons, List.getLast?_singleton, Option.some.injEq] at hg
      subst hg
      simp [mk', TF.stop])⟩ .nil)

example : gsCompute 10 (fun _ : List TF => (⟨[], some .keyError⟩ : Gen (Chunk (Option Nat)))) [mk' (some 0) (some 100)] =
    .error .keyError :=
  (C80_compute_error 10 _ _).2.2 .keyError _ rfl rfl

example := C80_preprocessing 10 [⟨0, 100, some 5, some 6⟩] { exGSReq [(0, 100)] with preprocessing := true } rfl
  ⟨_, List.mem_cons_self, rfl⟩ (by
    intro rows h
    simp only [exGSReq, Except.ok.injEq] at h
    subst h
    exact fresh_ok _ _ (by simp [mk', secBounds, TF.start, TF.stop]) (by simp [mk']))

end Nilmtk
