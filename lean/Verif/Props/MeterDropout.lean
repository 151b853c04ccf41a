import Verif.Model.MeterDropout
import Verif.Props.Dropout
import Verif.Props.MeterSections
import Verif.Props.MeterUptime
/-!
C115: from the files of REDD to the dropout rate of a meter.
-/
namespace Nilmtk
open TF

/-! ### Specification -/

/-- What is read in chunks of `cs` rows: pieces of `cs + 1` rows, each beginning with the last row of the one before. -/
def overlapping {β : Type} (cs : Nat) (h : 0 < cs) (l : List β) : List (List β) :=
  if cs + 1 < l.length then l.take (cs + 1) :: overlapping cs h (l.drop cs) else [l]
termination_by l.length
decreasing_by simp; omega

/-- The pieces of a section; with fewer than two readings there are none. -/
def piecesOf (cs : Nat) (h : 0 < cs) (l : List Int) : List (List Int) := if l.length < 2 then [] else overlapping cs h l

/-- The share of readings lost in a piece: of those expected at every sample period from the first to the last one.
With fewer than five readings it counts as zero. -/
def lostShare (sp : Rat) (l : List Int) : Rat :=
  if l.length < 5 then 0
  else max 0 (1 - (l.length : Rat) / ((pyRound (((l.getLast?.getD 0 - l.head?.getD 0 : Int) : Rat) / 1000000000 / sp) : Rat) + 1))

/-- The mean of it, weighted with the number of readings. -/
def meanLost (sp : Rat) (ls : List (List Int)) : Rat :=
  (ls.map (fun l => lostShare sp l * (l.length : Rat))).sum / ((ls.map List.length).sum : Nat)

/-- The runs that make a good section: those of two or more readings, and the last one if it goes on after the window. -/
def goodRuns (goesOn : Bool) (runs : List (List Int)) : List (List Int) :=
  if goesOn then runs.dropLast.filter (fun r => decide (2 ≤ r.length)) ++ runs.getLast?.toList
  else runs.filter (fun r => decide (2 ≤ r.length))

/-- What is read of them: the last reading is missing in all but the last one. -/
def readOf (good : List (List Int)) : List (List Int) := good.dropLast.map List.dropLast ++ good.getLast?.toList

/-! ### Pieces -/

theorem chunkLoop_pieces {α : Type} (table : List (Row α)) (w : TF) (nLook : Int) (cs stop n : Nat) (hcs : 0 < cs)
    (hst : stop < table.length) (i s : Nat) (hs : s < stop)
    (hne : (chunkLoop table w nLook cs stop n hcs i s).err = none) :
    (chunkLoop table w nLook cs stop n hcs i s).out.map Chunk.rows = overlapping cs hcs (selectRows table s (stop + 1)) := by
  induction hk : stop - s using Nat.strong_induction_on generalizing i s with
  | _ k ih =>
    have hlen : (selectRows table s (stop + 1)).length = stop + 1 - s := by rw [select_length]; omega
    rw [chunkLoop_unfold _ _ _ _ _ _ _ _ _ hs (by omega)] at hne ⊢
    rw [overlapping]
    split at hne
    · simp [Gen.raise] at hne
    · simp only [Gen.cons, List.map_cons] at hne ⊢
      by_cases hm : s + cs < stop
      · rw [if_pos (by rw [hlen]; omega), ih (stop - (s + cs)) (by omega) (i + 1) (s + cs) hm hne rfl]
        congr 1
        · rw [show min (s + cs) stop = s + cs by omega]
          simp only [selectRows]
          rw [List.take_take]
          congr 1
          omega
        · congr 1
          simp only [selectRows]
          rw [List.drop_take, List.drop_drop]
          congr 1
          omega
      · rw [if_neg (by rw [hlen]; omega), chunkLoop_done _ _ _ _ _ _ _ _ _ (by omega)]
        rw [show min (s + cs) stop = stop by omega]
        rfl

theorem section_pieces {α : Type} (rows : List (Row α)) (hinc : Increasing rows) (window sec : TF) (nLook cs : Int)
    (hcs : 0 < cs) (p : Int → Bool) (hp : ∀ t, p t = true ↔ Mem t (window.intersection sec))
    (hb : (window.intersection sec).start ≠ none) (h2 : 2 ≤ (rows.filter (fun r => p r.1)).length) :
    (loadSection (some rows) window nLook cs sec).1.out.map Chunk.rows =
      overlapping cs.toNat (by omega) (rows.filter (fun r => p r.1)) := by
  have herr := C14_load_error_iff rows hinc window sec nLook cs hcs p hp h2
  rw [if_neg (fun h => hb h.1)] at herr
  rcases loadSection_cases rows hinc window sec nLook cs hcs p hp with h | h | ⟨a, b, h1, h3, h4, h5, h6, h7, h8⟩
  · rw [h.1] at h2; simp at h2
  · omega
  · rw [h1] at herr ⊢
    simp only [loadRange, hcs, dif_pos] at herr ⊢
    rw [chunkLoop_pieces _ _ _ _ _ _ _ (by
      rcases h8 with h | h
      · exact h.2
      · exact absurd h.2.2.1 hb) _ _ h4 herr, h3]

theorem overlapping_map {β γ : Type} (f : β → γ) (cs : Nat) (h : 0 < cs) (l : List β) :
    overlapping cs h (l.map f) = (overlapping cs h l).map (List.map f) := by
  induction hk : l.length using Nat.strong_induction_on generalizing l with
  | _ k ih =>
    conv_lhs => rw [overlapping]
    conv_rhs => rw [overlapping]
    by_cases hc : cs + 1 < l.length
    · rw [if_pos (by rw [List.length_map]; exact hc), if_pos hc, List.map_cons, ← List.map_drop,
        ih (l.drop cs).length (by simp; omega) (l.drop cs) rfl, List.map_take]
    · rw [if_neg (by rw [List.length_map]; exact hc), if_neg hc]
      rfl

theorem overlapping_spec {β : Type} (cs : Nat) (h : 0 < cs) (l : List β) (h2 : 2 ≤ l.length) :
    ∀ k ∈ overlapping cs h l, 2 ≤ k.length ∧ k.Sublist l := by
  induction hk : l.length using Nat.strong_induction_on generalizing l with
  | _ m ih =>
    intro k hm
    rw [overlapping] at hm
    by_cases hc : cs + 1 < l.length
    · rw [if_pos hc] at hm
      rcases List.mem_cons.1 hm with rfl | hm
      · exact ⟨by rw [List.length_take]; omega, List.take_sublist _ _⟩
      · have := ih (l.drop cs).length (by simp; omega) (l.drop cs) (by simp; omega) rfl k hm
        exact ⟨this.1, this.2.trans (List.drop_sublist _ _)⟩
    · rw [if_neg hc, List.mem_singleton] at hm
      subst hm
      exact ⟨h2, List.Sublist.refl _⟩

/-! ### Rates -/

theorem rate_eq (sp : Rat) (hsp : 0 < sp) (l : List Int) (hinc : l.Pairwise (· < ·)) :
    ∃ r, getDropoutRate l sp = .ok r ∧ r.getD 0 = lostShare sp l := by
  unfold lostShare
  by_cases h5 : l.length < 5
  · exact ⟨none, (C25_nan_iff l sp).2 h5, by rw [if_pos h5]; rfl⟩
  · rw [if_neg h5]
    obtain ⟨a, ha⟩ : ∃ a, l.head? = some a := by
      cases l with
      | nil => simp at h5
      | cons a l => exact ⟨a, rfl⟩
    obtain ⟨b, hb⟩ : ∃ b, l.getLast? = some b := by
      cases hx : l.getLast? with
      | none => rw [List.getLast?_eq_none_iff] at hx; rw [hx] at h5; simp at h5
      | some b => exact ⟨b, rfl⟩
    have hab : a < b := by
      match l, ha, h5 with
      | x :: y :: k, ha, _ =>
        simp only [List.head?_cons, Option.some.injEq] at ha
        subst ha
        rw [List.getLast?_cons_cons] at hb
        exact (List.pairwise_cons.1 hinc).1 b (List.mem_of_getLast? hb)
      | [x], _, h5 => simp at h5
    refine ⟨_, (dropout_eq l sp hsp (by omega) a b ha hb hab).1, ?_⟩
    rw [ha, hb]
    rfl

theorem lostShare_bounds (sp : Rat) (hsp : 0 < sp) (l : List Int) (hinc : l.Pairwise (· < ·)) :
    0 ≤ lostShare sp l ∧ lostShare sp l < 1 := by
  unfold lostShare
  split
  · exact ⟨le_refl _, by norm_num⟩
  · rename_i h5
    refine ⟨le_max_left _ _, max_lt (by norm_num) ?_⟩
    have hpos : (0 : Rat) < l.length := by
      have : 0 < l.length := by omega
      exact_mod_cast this
    have hnn : 0 ≤ pyRound (((l.getLast?.getD 0 - l.head?.getD 0 : Int) : Rat) / 1000000000 / sp) := by
      apply pyRound_nonneg
      apply div_nonneg _ (le_of_lt hsp)
      apply div_nonneg _ (by norm_num)
      have : 0 ≤ l.getLast?.getD 0 - l.head?.getD 0 := by
        match l, h5 with
        | [x], _ => simp
        | x :: y :: k, _ =>
          rw [List.getLast?_cons_cons]
          obtain ⟨z, hz⟩ : ∃ z, (y :: k).getLast? = some z := by
            cases hx : (y :: k).getLast? with
            | none => simp at hx
            | some z => exact ⟨z, rfl⟩
          rw [hz]
          have := (List.pairwise_cons.1 hinc).1 z (List.mem_of_getLast? hz)
          simp
          omega
      exact_mod_cast this
    have hd : (0 : Rat) < (pyRound (((l.getLast?.getD 0 - l.head?.getD 0 : Int) : Rat) / 1000000000 / sp) : Rat) + 1 := by
      have : (0 : Rat) ≤ (pyRound (((l.getLast?.getD 0 - l.head?.getD 0 : Int) : Rat) / 1000000000 / sp) : Rat) := by
        exact_mod_cast hnn
      linarith
    have := div_pos hpos hd
    linarith

theorem meanLost_bounds (sp : Rat) (hsp : 0 < sp) (ls : List (List Int)) (hinc : ∀ l ∈ ls, l.Pairwise (· < ·)) :
    0 ≤ meanLost sp ls ∧ meanLost sp ls < 1 := by
  have h1 : 0 ≤ (ls.map (fun l => lostShare sp l * (l.length : Rat))).sum ∧
      ((ls.map (fun l => lostShare sp l * (l.length : Rat))).sum < ((ls.map List.length).sum : Nat) ∨
        (ls.map (fun l => lostShare sp l * (l.length : Rat))).sum = 0 ∧ (ls.map List.length).sum = 0) := by
    induction ls with
    | nil => simp
    | cons l ls ih =>
      obtain ⟨i1, i2⟩ := ih (fun k hk => hinc k (List.mem_cons_of_mem _ hk))
      obtain ⟨b1, b2⟩ := lostShare_bounds sp hsp l (hinc l List.mem_cons_self)
      have hl : (0 : Rat) ≤ l.length := by exact_mod_cast Nat.zero_le _
      have hm := mul_nonneg b1 hl
      simp only [List.map_cons, List.sum_cons]
      refine ⟨by linarith, ?_⟩
      rcases Nat.eq_zero_or_pos l.length with h0 | h0
      · rw [h0]
        rcases i2 with i2 | i2
        · left; push_cast at i2 ⊢; linarith
        · right; refine ⟨by rw [i2.1]; simp, by omega⟩
      · left
        have hl' : (0 : Rat) < l.length := by exact_mod_cast h0
        have hlt : lostShare sp l * (l.length : Rat) < l.length := by nlinarith
        rcases i2 with i2 | ⟨i2, i3⟩
        · push_cast at i2 ⊢; linarith
        · rw [i2, i3]; push_cast; linarith
  unfold meanLost
  rcases Nat.eq_zero_or_pos (ls.map List.length).sum with h0 | h0
  · rw [h0]; simp
  · have hpos : (0 : Rat) < ((ls.map List.length).sum : Nat) := by exact_mod_cast h0
    refine ⟨div_nonneg h1.1 (le_of_lt hpos), (div_lt_one hpos).2 ?_⟩
    rcases h1.2 with h | h
    · exact h
    · omega

theorem regular_ends (d : Int) (l : List Int) (h : l.IsChain (fun x y => y - x = d)) (hne : l ≠ []) :
    l.getLast?.getD 0 - l.head?.getD 0 = ((l.length : Int) - 1) * d := by
  induction l with
  | nil => exact absurd rfl hne
  | cons x l ih =>
    cases l with
    | nil => simp
    | cons y l =>
      rw [List.isChain_cons_cons] at h
      have := ih h.2 (by simp)
      rw [List.getLast?_cons_cons]
      simp only [List.head?_cons, Option.getD_some, List.length_cons] at this ⊢
      push_cast at this ⊢
      linarith [h.1]

theorem lostShare_regular (d : Int) (hd : 0 < d) (l : List Int) (h : l.IsChain (fun x y => y - x = d)) :
    lostShare ((d : Rat) / 1000000000) l = 0 := by
  unfold lostShare
  split
  · rfl
  · rename_i h5
    have hd' : (d : Rat) ≠ 0 := by exact_mod_cast hd.ne'
    rw [regular_ends d l h (by rintro rfl; simp at h5)]
    have e : ((((l.length : Int) - 1) * d : Int) : Rat) / 1000000000 / ((d : Rat) / 1000000000) = (((l.length : Int) - 1 : Int) : Rat) := by
      push_cast
      field_simp
    rw [e, pyRound_int]
    push_cast
    rw [sub_add_cancel, div_self (by
      have : l.length ≠ 0 := by omega
      exact_mod_cast this)]
    simp

/-! ### The node -/

/-- What a chunk contributes: its bounds and its times. -/
structure IsPiece (c : Chunk (Option Rat)) (z : (Int × Int) × List Int) : Prop where
  start : c.timeframe.start = some z.1.1
  stop : c.timeframe.stop = some z.1.2
  some : c.timeframe.empty = false
  times : c.rows.map Prod.fst = z.2

/-- Row and piece belong together. -/
def RowOf (sp : Rat) (r : RRow DRow) (z : (Int × Int) × List Int) : Prop :=
  r.start = z.1.1 ∧ r.stop = z.1.2 ∧ r.val.rate.getD 0 = lostShare sp z.2 ∧ r.val.n = z.2.length

theorem dropoutOfChunks_pieces (sp : Rat) (hsp : 0 < sp) (out : List (Chunk (Option Rat)))
    (zs : List ((Int × Int) × List Int)) (h : List.Forall₂ IsPiece out zs) (hlt : ∀ z ∈ zs, z.1.1 < z.1.2)
    (hap : zs.Pairwise (fun c d => c.1.2 ≤ d.1.1 ∨ d.1.2 ≤ c.1.1)) (hinc : ∀ z ∈ zs, z.2.Pairwise (· < ·))
    (acc : List (RRow DRow)) (hok : RowsOK acc) (hfree : ∀ z ∈ zs, ∀ r ∈ acc, r.stop ≤ z.1.1 ∨ z.1.2 ≤ r.start) :
    ∃ t new, dropoutOfChunks sp acc out = .ok t ∧ RowsOK t ∧ List.Forall₂ (RowOf sp) new zs ∧ t.Perm (new ++ acc) := by
  induction h generalizing acc with
  | nil => exact ⟨acc, [], rfl, hok, .nil, List.Perm.refl _⟩
  | @cons c z out zs h1 h2 ih =>
    obtain ⟨rate, r1, r2⟩ := rate_eq sp hsp z.2 (hinc z List.mem_cons_self)
    obtain ⟨rows', e1, e2, e3⟩ := (C28_append acc hok c.timeframe z.1.1 z.1.2 h1.start h1.stop h1.some
      (hlt z List.mem_cons_self) ⟨rate, c.rows.length⟩).1 (hfree z List.mem_cons_self)
    obtain ⟨p1, p2⟩ := List.pairwise_cons.1 hap
    obtain ⟨t, new, k1, k2, k3, k4⟩ := ih (fun d hd => hlt d (List.mem_cons_of_mem _ hd)) p2
      (fun d hd => hinc d (List.mem_cons_of_mem _ hd)) rows' e2 (by
        intro d hd r hr
        rcases List.mem_cons.1 (e3.mem_iff.1 hr) with rfl | hr
        · exact p1 d hd
        · exact hfree d (List.mem_cons_of_mem _ hd) r hr)
    refine ⟨t, ⟨z.1.1, z.1.2, ⟨rate, c.rows.length⟩⟩ :: new, ?_, k2, .cons ⟨rfl, rfl, r2, ?_⟩ k3, ?_⟩
    · simp only [dropoutOfChunks, h1.times, r1, e1]
      exact k1
    · have := congrArg List.length h1.times
      simpa using this
    · refine k4.trans ?_
      refine (List.Perm.append_left new e3).trans ?_
      exact List.perm_middle

theorem combined_rows (sp : Rat) (rows : List (RRow DRow)) (zs : List ((Int × Int) × List Int))
    (h : List.Forall₂ (RowOf sp) rows zs) : dropoutCombined (rows.map RRow.val) = meanLost sp (zs.map Prod.snd) := by
  rw [C26_nan_counts_as_zero]
  have e : (rows.map RRow.val).map (fun r => (⟨some (r.rate.getD 0), r.n⟩ : DRow)) =
      (zs.map (fun z => (lostShare sp z.2, z.2.length))).map (fun r => ⟨some r.1, r.2⟩) := by
    induction h with
    | nil => rfl
    | @cons r z rows zs h1 _ ih =>
      rw [List.map_cons, List.map_cons, ih, List.map_cons, List.map_cons, h1.2.2.1, h1.2.2.2]
  rw [e]
  have hn : (zs.map (fun z => (lostShare sp z.2, z.2.length))).map Prod.snd = (zs.map Prod.snd).map List.length := by
    rw [List.map_map, List.map_map]; rfl
  rcases Nat.eq_zero_or_pos ((zs.map Prod.snd).map List.length).sum with h0 | h0
  · unfold meanLost
    rw [h0]
    unfold dropoutCombined
    have e2 : (((zs.map (fun z => (lostShare sp z.2, z.2.length))).map (fun r => (⟨some r.1, r.2⟩ : DRow))).map DRow.n).sum = 0 := by
      rw [← h0, ← hn, List.map_map]; rfl
    simp only [e2, if_true]
    have : ∀ l : List DRow, skipSum (l.map (fun r => nanMul r.rate none)) = 0 := by
      intro l
      induction l with
      | nil => rfl
      | cons r l ih => rw [List.map_cons, nanMul_none_right, skipSum_cons_none, ih]
    rw [this]
    simp
  · rw [C26_weighted_mean _ (by rw [hn]; exact h0), hn]
    unfold meanLost
    congr 1
    rw [List.map_map, List.map_map]
    rfl

theorem combined_perm {a b : List (RRow DRow)} (h : a.Perm b) :
    dropoutCombined (a.map RRow.val) = dropoutCombined (b.map RRow.val) := by
  unfold dropoutCombined
  simp only [((h.map RRow.val).map DRow.n).sum_eq]
  exact skipSum_perm ((h.map RRow.val).map _)

theorem meanLost_nonempty (sp : Rat) (ls : List (List Int)) :
    meanLost sp ls = meanLost sp (ls.filter (fun l => decide (l ≠ []))) := by
  unfold meanLost
  have h1 : (ls.map (fun l => lostShare sp l * (l.length : Rat))).sum =
      ((ls.filter (fun l => decide (l ≠ []))).map (fun l => lostShare sp l * (l.length : Rat))).sum := by
    induction ls with
    | nil => rfl
    | cons l ls ih =>
      cases l with
      | nil => rw [List.filter_cons_of_neg (by simp), List.map_cons, List.sum_cons, ih]; simp
      | cons x l => rw [List.filter_cons_of_pos (by simp), List.map_cons, List.map_cons, List.sum_cons, List.sum_cons, ih]
  have h2 : (ls.map List.length).sum = ((ls.filter (fun l => decide (l ≠ []))).map List.length).sum := by
    induction ls with
    | nil => rfl
    | cons l ls ih =>
      cases l with
      | nil => rw [List.filter_cons_of_neg (by simp), List.map_cons, List.sum_cons, ih (by
          have := h1
          rw [List.filter_cons_of_neg (by simp), List.map_cons, List.sum_cons] at this
          simpa using this)]; simp
      | cons x l => rw [List.filter_cons_of_pos (by simp), List.map_cons, List.map_cons, List.sum_cons, List.sum_cons, ih (by
          have := h1
          rw [List.filter_cons_of_pos (by simp), List.map_cons, List.map_cons, List.sum_cons, List.sum_cons] at this
          linarith)]
  rw [h1, h2]

theorem meanLost_perm (sp : Rat) {a b : List (List Int)} (h : a.Perm b) : meanLost sp a = meanLost sp b := by
  unfold meanLost
  rw [(h.map _).sum_eq, (h.map List.length).sum_eq]

/-! ### Sections -/

/-- A section with bounds, and what the window leaves of it. -/
structure BoundedBy (window sec : TF) (q : Int × Int) : Prop where
  start : sec.start = some q.1
  stop : sec.stop = some q.2
  nonempty : sec.empty = false
  lt : q.1 < q.2
  left : (window.intersection sec).empty = true ∨ ∃ s e, (window.intersection sec).start = some s ∧
    (window.intersection sec).stop = some e ∧ s < e ∧ q.1 ≤ s ∧ e ≤ q.2

theorem section_lone {α : Type} (rows : List (Row α)) (hinc : Increasing rows) (window sec : TF) (cs : Int) (hcs : 0 < cs)
    (p : Int → Bool) (hp : ∀ t, p t = true ↔ Mem t (window.intersection sec)) (he : (window.intersection sec).empty = false)
    (hb : (window.intersection sec).start ≠ none) (h2 : (rows.filter (fun r => p r.1)).length = 1) :
    (loadSection (some rows) window 0 cs sec).1 = ⟨[], none⟩ := by
  unfold loadSection
  simp only [he, Bool.false_eq_true, if_false]
  cases hq : (window.intersection sec).queryTerms with
  | error e =>
    exfalso
    simp only [queryTerms, he, Bool.false_eq_true, if_false] at hq
    split at hq <;> cases hq
  | ok o =>
    cases o with
    | none => exact absurd (queryTerms_none hq).2.1 hb
    | some terms =>
      simp only
      have hfil : rows.filter (fun r => p r.1) = rows.filter (fun r => matchesTerms terms r.1) := by
        apply List.filter_congr
        intro r _
        rw [Bool.eq_iff_iff, hp, matchesTerms_iff hq]
      rw [hfil] at h2
      cases hh : (coordinates terms rows).head? with
      | none =>
        rw [List.head?_eq_none_iff] at hh
        rw [coordinates_nil _ _ hh] at h2
        simp at h2
      | some a =>
        cases hl : (coordinates terms rows).getLast? with
        | none =>
          rw [List.getLast?_eq_none_iff] at hl
          rw [hl] at hh; cases hh
        | some b =>
          obtain ⟨h1, h3, _, _, h5⟩ := select_coordinates terms rows hinc a b hh hl
          rw [← h5, select_length] at h2
          have : a = b := by omega
          subst this
          simp only [loadRange, hcs, dif_pos]
          rw [chunkLoop_done _ _ _ _ _ _ _ _ _ (Nat.le_refl _)]
          rfl

theorem section_piece (rows : List (Row (Option Rat))) (hinc : Increasing rows) (window sec : TF) (q : Int × Int)
    (hb : BoundedBy window sec q) (p : Int → Bool) (hp : ∀ t, p t = true ↔ Mem t (window.intersection sec)) (cs : Int)
    (hcs : 0 < cs) :
    ∃ out zs, (loadSection (some rows) window 0 cs sec).1 = ⟨out, none⟩ ∧ List.Forall₂ IsPiece out zs ∧
      (∀ z ∈ zs, z.1.1 < z.1.2 ∧ q.1 ≤ z.1.1 ∧ z.1.2 ≤ q.2) ∧ zs.Pairwise (fun c d => c.1.2 ≤ d.1.1) ∧
      (∀ z ∈ zs, z.2.Pairwise (· < ·)) ∧
      (zs.map Prod.snd).filter (fun l => decide (l ≠ [])) =
        piecesOf cs.toNat (by omega) ((rows.filter (fun r => p r.1)).map Prod.fst) ∧
      (zs = [] ↔ (rows.filter (fun r => p r.1)).length = 1) := by
  rcases Bool.eq_false_or_eq_true (window.intersection sec).empty with he | he
  · have hnone : rows.filter (fun r => p r.1) = [] := by
      rw [List.filter_eq_nil_iff]
      intro r _ hr
      have := ((hp r.1).1 hr).1
      rw [he] at this; cases this
    refine ⟨[⟨[], sec, none⟩], [(q, [])], ?_, .cons ⟨hb.start, hb.stop, hb.nonempty, rfl⟩ .nil, ?_, by simp, by simp, ?_, ?_⟩
    · unfold loadSection
      simp only [he, if_true]
    · intro z hz
      simp only [List.mem_singleton] at hz
      subst hz
      exact ⟨hb.lt, le_refl _, le_refl _⟩
    · rw [hnone]; rfl
    · rw [hnone]; simp
  · obtain ⟨s', e', w1, w2, w3, w4, w5⟩ : ∃ s e, (window.intersection sec).start = some s ∧
      (window.intersection sec).stop = some e ∧ s < e ∧ q.1 ≤ s ∧ e ≤ q.2 := by
      rcases hb.left with h | h
      · rw [he] at h; cases h
      · exact h
    by_cases h2 : 2 ≤ (rows.filter (fun r => p r.1)).length
    · have hpieces := section_pieces rows hinc window sec 0 cs hcs p hp (by rw [w1]; simp) h2
      have herr := C14_load_error_iff rows hinc window sec 0 cs hcs p hp h2
      rw [if_neg (by rw [w1]; simp)] at herr
      obtain ⟨start, stop, hs, _⟩ := loadSection_spec rows hinc window sec 0 cs hcs p hp h2
      have htiles := hs.tiles
      rw [if_pos rfl, w1, w2] at htiles
      simp only [Option.getD_some] at htiles
      cases hl : (loadSection (some rows) window 0 cs sec).1 with
      | mk out err =>
        rw [hl] at hpieces herr htiles
        simp only at hpieces herr htiles
        subst herr
        obtain ⟨bs, b1, b2, b3⟩ := tiles_bounds htiles
        have hup := (tiles_upper htiles).2
        have hlen : out.length = bs.length := by simpa using b1.length_eq
        have hspec := overlapping_spec cs.toNat (by omega) _ h2
        have hrows : ∀ c ∈ out, 2 ≤ c.rows.length ∧ c.rows.Sublist (rows.filter (fun r => p r.1)) := by
          intro c hc
          exact hspec c.rows (hpieces ▸ List.mem_map_of_mem hc)
        have hsnd : ((bs.zip out).map (fun z => (z.1, z.2.rows.map Prod.fst))).map Prod.snd =
            (overlapping cs.toNat (by omega) (rows.filter (fun r => p r.1))).map (List.map Prod.fst) := by
          rw [← hpieces, List.map_map, List.map_map]
          have : (bs.zip out).map (Prod.snd ∘ fun z => (z.1, z.2.rows.map Prod.fst)) =
              ((bs.zip out).map Prod.snd).map (List.map Prod.fst ∘ Chunk.rows) := by
            rw [List.map_map]; rfl
          rw [this, List.map_snd_zip (by omega)]
        refine ⟨out, (bs.zip out).map (fun z => (z.1, z.2.rows.map Prod.fst)), rfl, ?_, ?_, ?_, ?_, ?_, ?_⟩
        · clear hpieces htiles hup b2 b3 hrows hsnd hl hspec
          induction out generalizing bs with
          | nil => simp
          | cons c out ih =>
            cases bs with
            | nil => simp at hlen
            | cons d bs =>
              rw [List.map_cons, List.forall₂_cons] at b1
              rw [List.zip_cons_cons, List.map_cons]
              exact .cons ⟨b1.1.1, b1.1.2.1, b1.1.2.2, rfl⟩ (ih bs b1.2 (by simpa using hlen))
        · intro z hz
          obtain ⟨⟨d, c⟩, hq, rfl⟩ := List.mem_map.1 hz
          have hd := (List.of_mem_zip hq).1
          obtain ⟨g, hg, hgd⟩ : ∃ g ∈ out.map Chunk.timeframe, g.stop = some d.2 := by
            generalize out.map Chunk.timeframe = gs at b1
            clear * - b1 hd
            induction b1 with
            | nil => cases hd
            | @cons g d' gs bs h _ ih =>
              rcases List.mem_cons.1 hd with rfl | hd
              · exact ⟨g, List.mem_cons_self, h.2.1⟩
              · obtain ⟨g', m, e⟩ := ih hd
                exact ⟨g', List.mem_cons_of_mem _ m, e⟩
          have h1 := b2 d hd
          have h3 := hup g hg d.2 hgd
          exact ⟨h1.1, by simp only; omega, by simp only; omega⟩
        · rw [List.pairwise_map]
          have : ((bs.zip out).map Prod.fst).Pairwise (fun c d : Int × Int => c.2 ≤ d.1) := by
            rw [List.map_fst_zip (by omega)]; exact b3
          rw [List.pairwise_map] at this
          exact this
        · intro z hz
          obtain ⟨⟨d, c⟩, hq, rfl⟩ := List.mem_map.1 hz
          have hc := (hrows c (List.of_mem_zip hq).2).2
          simp only
          rw [List.pairwise_map]
          exact (hinc.filter _).sublist hc
        · rw [hsnd, piecesOf, if_neg (by rw [List.length_map]; omega), overlapping_map]
          rw [List.filter_eq_self]
          intro l hl'
          obtain ⟨k, hk, rfl⟩ := List.mem_map.1 hl'
          have := (hspec k hk).1
          have hne : k.map Prod.fst ≠ [] := by
            intro h
            have hlen := congrArg List.length h
            rw [List.length_map, List.length_nil] at hlen
            omega
          simpa using hne
        · constructor
          · intro h
            exfalso
            have hno := hs.nonempty
            rw [hl] at hno
            have := congrArg List.length h
            simp only [List.length_map, List.length_zip, List.length_nil] at this
            exact hno (List.length_eq_zero_iff.1 (by simp only; omega))
          · intro h; omega
    · have h2' : (rows.filter (fun r => p r.1)).length < 2 := by omega
      have hpe : piecesOf cs.toNat (by omega) ((rows.filter (fun r => p r.1)).map Prod.fst) = [] := by
        rw [piecesOf, if_pos (by rw [List.length_map]; exact h2')]
      rcases loadSection_cases rows hinc window sec 0 cs hcs p hp with ⟨k1, tf, k2⟩ | ⟨k1, k2, k3, k4, k5⟩ | ⟨x, y, k1, k2, k3, k4, _⟩
      · rcases section_few rows hinc window sec cs hcs _ hp he (by rw [w1]; simp) h2' with h | h
        · rw [k2] at h
          exact absurd (congrArg Gen.out h) (by simp)
        · refine ⟨_, [((s', e'), [])], h, .cons ⟨w1, w2, he, rfl⟩ .nil, ?_, by simp, by simp, ?_, ?_⟩
          · intro z hz
            simp only [List.mem_singleton] at hz
            subst hz
            exact ⟨w3, w4, w5⟩
          · rw [hpe]; rfl
          · rw [k1]; simp
      · refine ⟨[], [], section_lone rows hinc window sec cs hcs _ hp he (by rw [w1]; simp) k1, .nil, by simp, by simp, by simp, ?_, ?_⟩
        · rw [hpe]; rfl
        · simp [k1]
      · exfalso
        rw [← k2, select_length] at h2'
        omega

theorem sections_pieces (rows : List (Row (Option Rat))) (hinc : Increasing rows) (window : TF) (cs : Int) (hcs : 0 < cs)
    (p : TF → Int → Bool) (ds : List (TF × (Int × Int))) (hb : ∀ d ∈ ds, BoundedBy window d.1 d.2)
    (hp : ∀ d ∈ ds, ∀ t, p d.1 t = true ↔ Mem t (window.intersection d.1))
    (hap : ds.Pairwise (fun c d => c.2.2 ≤ d.2.1 ∨ d.2.2 ≤ c.2.1)) (flag : Bool) :
    ∃ out zs, (loadSections (some rows) window 0 cs (ds.map Prod.fst) flag).1 = ⟨out, none⟩ ∧ List.Forall₂ IsPiece out zs ∧
      (∀ z ∈ zs, z.1.1 < z.1.2 ∧ ∃ d ∈ ds, d.2.1 ≤ z.1.1 ∧ z.1.2 ≤ d.2.2) ∧
      zs.Pairwise (fun c d => c.1.2 ≤ d.1.1 ∨ d.1.2 ≤ c.1.1) ∧ (∀ z ∈ zs, z.2.Pairwise (· < ·)) ∧
      (zs.map Prod.snd).filter (fun l => decide (l ≠ [])) =
        ds.flatMap (fun d => piecesOf cs.toNat (by omega) ((rows.filter (fun r => p d.1 r.1)).map Prod.fst)) ∧
      (zs = [] ↔ ∀ d ∈ ds, (rows.filter (fun r => p d.1 r.1)).length = 1) := by
  induction ds generalizing flag with
  | nil => exact ⟨[], [], rfl, .nil, by simp, .nil, by simp, rfl, by simp⟩
  | cons d ds ih =>
    obtain ⟨p1, p2⟩ := List.pairwise_cons.1 hap
    obtain ⟨out1, zs1, a1, a2, a3, a4, a5, a6, a7⟩ := section_piece rows hinc window d.1 d.2 (hb d List.mem_cons_self) (p d.1)
      (hp d List.mem_cons_self) cs hcs
    obtain ⟨out2, zs2, b1, b2, b3, b4, b5, b6, b7⟩ := ih (fun e he => hb e (List.mem_cons_of_mem _ he))
      (fun e he => hp e (List.mem_cons_of_mem _ he)) p2
      (flag && !(loadSection (some rows) window 0 cs d.1).2)
    refine ⟨out1 ++ out2, zs1 ++ zs2, ?_, List.rel_append a2 b2, ?_, ?_, ?_, ?_, ?_⟩
    · rw [List.map_cons, loadSections]
      simp only [a1, b1, Gen.append]
    · intro z hz
      rcases List.mem_append.1 hz with hz | hz
      · have := a3 z hz
        exact ⟨this.1, d, List.mem_cons_self, this.2⟩
      · obtain ⟨c1, e, he, c2⟩ := b3 z hz
        exact ⟨c1, e, List.mem_cons_of_mem _ he, c2⟩
    · rw [List.pairwise_append]
      refine ⟨a4.imp (fun h => .inl h), b4, ?_⟩
      intro z hz w hw
      have h1 := a3 z hz
      obtain ⟨_, e, he, h2⟩ := b3 w hw
      have h3 := p1 e he
      omega
    · intro z hz
      rcases List.mem_append.1 hz with hz | hz
      · exact a5 z hz
      · exact b5 z hz
    · rw [List.map_append, List.filter_append, a6, b6, List.flatMap_cons]
    · rw [List.append_eq_nil_iff, a7, b7, List.forall_mem_cons]

theorem computeDropout_eq (rows : List (Row (Option Rat))) (hinc : Increasing rows) (sp : Rat) (hsp : 0 < sp) (window : TF)
    (cs : Int) (hcs : 0 < cs) (p : TF → Int → Bool) (ds : List (TF × (Int × Int)))
    (hb : ∀ d ∈ ds, BoundedBy window d.1 d.2)
    (hp : ∀ d ∈ ds, ∀ t, p d.1 t = true ↔ Mem t (window.intersection d.1))
    (hap : ds.Pairwise (fun c d => c.2.2 ≤ d.2.1 ∨ d.2.2 ≤ c.2.1)) :
    ∃ res, computeDropout rows sp window (ds.map Prod.fst) cs = .ok res ∧
      (res = [] ↔ ∀ d ∈ ds, (rows.filter (fun r => p d.1 r.1)).length = 1) ∧
      dropoutCombined (res.map RRow.val) = meanLost sp (ds.flatMap (fun d =>
        piecesOf cs.toNat (by omega) ((rows.filter (fun r => p d.1 r.1)).map Prod.fst))) := by
  obtain ⟨out, zs, h1, h2, h3, h4, h5, h6, h7⟩ := sections_pieces rows hinc window cs hcs p ds hb hp hap true
  obtain ⟨t, new, e1, e2, e3, e4⟩ := dropoutOfChunks_pieces sp hsp out zs h2 (fun z hz => (h3 z hz).1) h4 h5 [] ⟨by simp, by simp⟩
    (by simp)
  rw [List.append_nil] at e4
  have hl : (hdfLoad (some rows) window (some (ds.map Prod.fst)) 0 cs).1 = ⟨out, none⟩ := h1
  have hlen : new.length = zs.length := e3.length_eq
  have key : ∀ res : List (RRow DRow), res.Perm t →
      (res = [] ↔ ∀ d ∈ ds, (rows.filter (fun r => p d.1 r.1)).length = 1) ∧
      dropoutCombined (res.map RRow.val) = meanLost sp (ds.flatMap (fun d =>
        piecesOf cs.toNat (by omega) ((rows.filter (fun r => p d.1 r.1)).map Prod.fst))) := by
    intro res hr
    refine ⟨?_, ?_⟩
    · rw [← h7]
      have := (hr.trans e4).length_eq
      rw [← List.length_eq_zero_iff, ← List.length_eq_zero_iff, this, hlen]
    · rw [combined_perm (hr.trans e4), combined_rows sp new zs e3, meanLost_nonempty, h6]
  obtain ⟨u1, _, u3⟩ := (C29_update [] t ⟨by simp, by simp⟩ e2).1 (by simp)
  cases hu : Results.update [] t with
  | mk x y =>
    rw [hu] at u1 u3
    simp only at u1 u3
    subst u1
    refine ⟨x, ?_, key x u3⟩
    unfold computeDropout
    rw [hl]
    simp only [e1, hu]

/-! ### Theorems -/

theorem rate_of_sections (ac : String) (l : List (Int × Rat)) (hinc : l.Pairwise (fun x y => x.1 < y.1)) (sp : Rat)
    (hsp : 0 < sp) (msp : Int) (window : TF) (given : Option (List TF)) (ignoreGaps : Bool) (cs : Int) (hcs : 0 < cs)
    (asked : Option (List TF)) (hsec : dropoutSections (asTable ac l) msp window given ignoreGaps false cs = .ok asked)
    (ds : List (TF × (Int × Int))) (hcomp : statSections (asTable ac l).rows window asked = .ok (ds.map Prod.fst))
    (p : TF → Int → Bool) (hb : ∀ d ∈ ds, BoundedBy window d.1 d.2)
    (hp : ∀ d ∈ ds, ∀ t, p d.1 t = true ↔ Mem t (window.intersection d.1))
    (hap : ds.Pairwise (fun c d => c.2.2 ≤ d.2.1 ∨ d.2.2 ≤ c.2.1)) :
    meterDropoutRate (some (asTable ac l)) sp msp window given ignoreGaps cs =
      if ∀ d ∈ ds, (l.filter (fun r => p d.1 r.1)).length = 1 then .error .keyError
      else .ok (meanLost sp (ds.flatMap (fun d =>
        piecesOf cs.toNat (by omega) ((l.filter (fun r => p d.1 r.1)).map Prod.fst)))) := by
  have hi := table_increasing ac l hinc
  have hfil : ∀ q : Int → Bool, (asTable ac l).rows.filter (fun r => q r.1) =
      (l.filter (fun r => q r.1)).map (fun r => (r.1, some r.2)) := fun q => table_filter ac l q q (fun _ _ => rfl)
  have hpc : ∀ q : Int → Bool, ((asTable ac l).rows.filter (fun r => q r.1)).map Prod.fst =
      (l.filter (fun r => q r.1)).map Prod.fst := by
    intro q
    rw [hfil, List.map_map]
    rfl
  obtain ⟨res, r1, r2, r3⟩ := computeDropout_eq _ hi sp hsp window cs hcs p ds hb hp hap
  simp only [hpc] at r3
  have r2' : res = [] ↔ ∀ d ∈ ds, (l.filter (fun r => p d.1 r.1)).length = 1 := by
    rw [r2]
    simp only [hfil, List.length_map]
  unfold meterDropoutRate meterDropoutResults
  simp only [hsec, hcomp]
  cases ds with
  | nil => simp
  | cons d ds =>
    rw [List.map_cons] at r1 ⊢
    simp only [r1]
    by_cases hr : res = []
    · rw [if_pos (r2'.1 hr), if_pos (by rw [hr]; rfl)]
    · rw [if_neg (fun h => hr (r2'.2 h)), if_neg (by simpa using hr), r3]

/-- C115. The dropout rate of a meter (`ignore_gaps=False`) is the mean of the shares lost in the pieces its readings within
the window are read in; a reading at the end of the window counts. -/
theorem C115_pieces_partial (ac : String) (l : List (Int × Rat)) (hinc : l.Pairwise (fun x y => x.1 < y.1)) (sp : Rat)
    (hsp : 0 < sp) (msp : Int) (a b : Option Int) (cs : Int) (hcs : 0 < cs) (inside : List (Int × Rat))
    (hin : inside = l.filter (fun r => between a b r.1)) (h2 : 2 ≤ inside.length) :
    meterDropoutRate (some (asTable ac l)) sp msp (mk' a b) none false cs =
      .ok (meanLost sp (overlapping cs.toNat (by omega) (inside.map Prod.fst))) := by
  obtain ⟨first, fin, hff, ⟨rf, hrf, hrf'⟩, hbd, _, _, htf⟩ := table_frame ac l hinc (by
    have := List.length_filter_le (fun r : Int × Rat => between a b r.1) l
    rw [← hin] at this; omega)
  rcases Bool.eq_false_or_eq_true ((mk' a b).intersection (mk' (some first) (some fin))).empty with he | he
  · exfalso
    have := few_inside l hinc (fun r => between a b r.1) (fun r hr q hq h h' =>
      default_section_empty a b first fin he r.1 q.1 (hbd r hr).1 (hbd r hr).2 h (hbd q hq).1 (hbd q hq).2 h')
    rw [← hin] at this
    omega
  obtain ⟨s, e, hse, heq, hmem⟩ := default_section a b first fin he
  obtain ⟨s', e', hst, hsp', hlt, _, _⟩ := window_bounds a b first fin he
  set sec : TF := { (mk' a b).intersection (mk' (some first) (some fin)) with includeEnd := true } with hsecdef
  have hs1 : sec.start = some s' := hst
  have hs2 : sec.stop = some e' := hsp'
  have hs3 : sec.empty = false := he
  set p : TF → Int → Bool := fun _ t => decide (first ≤ t) && decide (t ≤ fin) && between a b t with hpdef
  have hfl : l.filter (fun r => p sec r.1) = inside := by
    rw [hin]
    apply List.filter_congr
    intro r hr
    have := hbd r hr
    simp [hpdef, this]
  have hm : ∀ t, p sec t = true ↔ Mem t ((mk' a b).intersection sec) := by
    intro t
    rw [heq, hmem]
    simp [hpdef, and_assoc]
  have hin1 : s' ≤ s ∧ e ≤ e' := by
    have hw : ∀ t, Mem t sec ↔ (s' ≤ t ∧ t ≤ e') := by
      intro t
      unfold Mem
      rw [hs1, hs2, hs3]
      simp [hsecdef]
      omega
    have hsub : ∀ t, Mem t ((mk' a b).intersection sec) → Mem t sec := by
      intro t ht
      rw [heq, hmem] at ht
      have h1 : Mem t ((mk' a b).intersection (mk' (some first) (some fin))) ∨ t = e' := by
        by_cases hte : t = e'
        · exact .inr hte
        · left
          rw [window_and_table] at hst hsp' ⊢
          by_cases hc : (a.map (max · first)).getD first ≥ (b.map (min · fin)).getD fin
          · rw [if_pos hc] at hst; cases hst
          · rw [if_neg hc] at hst hsp' ⊢
            have e1 : (a.map (max · first)).getD first = s' := Option.some.inj hst
            have e2 : (b.map (min · fin)).getD fin = e' := Option.some.inj hsp'
            refine ⟨rfl, ?_, ?_⟩
            · intro x hx
              have : (a.map (max · first)).getD first = x := Option.some.inj hx
              rcases a with _ | a <;> rcases b with _ | b <;> simp [between] at ht this e1 e2 <;> omega
            · intro x hx
              have : (b.map (min · fin)).getD fin = x := Option.some.inj hx
              left
              rcases a with _ | a <;> rcases b with _ | b <;> simp [between] at ht this e1 e2 <;> omega
      rw [hw]
      rcases h1 with h1 | h1
      · have k1 := h1.2.1 s' hst
        have k2 := h1.2.2 e' hsp'
        omega
      · omega
    have m1 : Mem s ((mk' a b).intersection sec) := by
      rw [heq]
      exact ⟨rfl, fun x hx => by cases hx; exact le_refl _, fun x hx => by cases hx; exact .inl hse⟩
    have m2 : Mem e ((mk' a b).intersection sec) := by
      rw [heq]
      exact ⟨rfl, fun x hx => by cases hx; exact le_of_lt hse, fun x hx => by cases hx; exact .inr ⟨rfl, rfl⟩⟩
    exact ⟨((hw s).1 (hsub s m1)).1, ((hw e).1 (hsub e m2)).2⟩
  have := rate_of_sections ac l hinc sp hsp msp (mk' a b) none false cs hcs none rfl [(sec, (s', e'))] (by
      simp only [statSections, htf]
      rw [sectionsToCompute_one, List.filter_cons_of_pos (by simpa using he)]
      rfl) p (by
      intro d hd
      simp only [List.mem_singleton] at hd
      subst hd
      refine ⟨hs1, hs2, hs3, hlt, .inr ⟨s, e, ?_, ?_, hse, hin1.1, hin1.2⟩⟩
      · rw [heq]; rfl
      · rw [heq]; rfl) (by
      intro d hd
      simp only [List.mem_singleton] at hd
      subst hd
      exact hm) (by simp)
  rw [this, if_neg (by
    intro h
    have := h _ List.mem_cons_self
    simp only [hfl] at this
    omega)]
  simp only [List.flatMap_cons, List.flatMap_nil, List.append_nil, hfl]
  rw [piecesOf, if_neg (by rw [List.length_map]; omega)]

/-- C115. Read in one chunk, it is the share of the readings lost between the first and the last one. -/
theorem C115_one_chunk_partial (ac : String) (l : List (Int × Rat)) (hinc : l.Pairwise (fun x y => x.1 < y.1)) (sp : Rat)
    (hsp : 0 < sp) (msp : Int) (a b : Option Int) (cs : Int) (inside : List (Int × Rat))
    (hin : inside = l.filter (fun r => between a b r.1)) (h2 : 2 ≤ inside.length) (hcs : (inside.length : Int) ≤ cs + 1) :
    meterDropoutRate (some (asTable ac l)) sp msp (mk' a b) none false cs = .ok (lostShare sp (inside.map Prod.fst)) := by
  rw [C115_pieces_partial ac l hinc sp hsp msp a b cs (by omega) inside hin h2, overlapping,
    if_neg (by rw [List.length_map]; omega)]
  unfold meanLost
  have : ((inside.map Prod.fst).length : Rat) ≠ 0 := by
    have h0 : (inside.map Prod.fst).length ≠ 0 := by rw [List.length_map]; omega
    exact_mod_cast h0
  simp only [List.map_cons, List.map_nil, List.sum_cons, List.sum_nil, add_zero]
  rw [mul_div_assoc, div_self this, mul_one]

theorem overlapping_infix {β : Type} (cs : Nat) (h : 0 < cs) (l : List β) : ∀ k ∈ overlapping cs h l, k <:+: l := by
  induction hk : l.length using Nat.strong_induction_on generalizing l with
  | _ m ih =>
    intro k hm
    rw [overlapping] at hm
    by_cases hc : cs + 1 < l.length
    · rw [if_pos hc] at hm
      rcases List.mem_cons.1 hm with rfl | hm
      · exact (List.take_prefix _ _).isInfix
      · exact (ih (l.drop cs).length (by simp; omega) (l.drop cs) rfl k hm).trans (List.drop_suffix _ _).isInfix
    · rw [if_neg hc, List.mem_singleton] at hm
      subst hm
      exact List.infix_refl _

theorem readOf_infix (good : List (List Int)) : ∀ k ∈ readOf good, ∃ r ∈ good, k <:+: r := by
  intro k hk
  unfold readOf at hk
  rcases List.mem_append.1 hk with hk | hk
  · obtain ⟨r, hr, rfl⟩ := List.mem_map.1 hk
    exact ⟨r, List.dropLast_subset _ hr, (List.dropLast_prefix r).isInfix⟩
  · rw [Option.mem_toList] at hk
    exact ⟨k, List.mem_of_getLast? hk, List.infix_refl _⟩

/-- C115. With sections given (`ignore_gaps=False`) it is the mean over the pieces of all sections, in any order, whatever is
given twice; sections with fewer than two readings do not count. Without a section with other than one reading: `KeyError`. -/
theorem C115_sections_partial (ac : String) (l : List (Int × Rat)) (hinc : l.Pairwise (fun x y => x.1 < y.1)) (sp : Rat)
    (hsp : 0 < sp) (msp : Int) (a b : Option Int) (sections : List TF)
    (given secs : List (Int × Int)) (hsec : sections.filter (fun s => !s.empty) = asSections given)
    (hsame : ∀ s, s ∈ given ↔ s ∈ secs) (hlt : ∀ s ∈ secs, s.1 < s.2)
    (hap : secs.Pairwise (fun s d => s.2 ≤ d.1 ∨ d.2 ≤ s.1)) (inside : Int × Int → List (Int × Rat))
    (hin : ∀ s, inside s = l.filter (fun r => inSection a b s r.1)) (cs : Int) (hcs : 0 < cs) :
    meterDropoutRate (some (asTable ac l)) sp msp (mk' a b) (some sections) false cs =
      if ∀ s ∈ secs, (inside s).length = 1 then .error .keyError
      else .ok (meanLost sp (secs.flatMap (fun s => piecesOf cs.toNat (by omega) ((inside s).map Prod.fst)))) := by
  obtain ⟨secs', hcomp, hperm⟩ := sectionsToCompute_asSections given secs hsame hlt hap
  have hlt' : ∀ s ∈ secs', s.1 < s.2 := fun s hs => hlt s (hperm.mem_iff.1 hs)
  have hap' : secs'.Pairwise (fun s d => s.2 ≤ d.1 ∨ d.2 ≤ s.1) := hperm.symm.pairwise hap (fun h => h.symm)
  set p : TF → Int → Bool := fun f t => inSection a b (f.start.getD 0, f.stop.getD 0) t with hpdef
  have hds : (secs'.map (fun s => (mk' (some s.1) (some s.2), s))).map Prod.fst = asSections secs' := by
    rw [List.map_map]; rfl
  have hpe : ∀ s : Int × Int, l.filter (fun r => p (mk' (some s.1) (some s.2)) r.1) = inside s := by
    intro s
    rw [hin]
    rfl
  have := rate_of_sections ac l hinc sp hsp msp (mk' a b) (some sections) false cs hcs (some sections) rfl
    (secs'.map (fun s => (mk' (some s.1) (some s.2), s))) (by
      rw [hds]
      simp only [statSections, hsec, hcomp]) p (by
      intro d hd
      obtain ⟨s, hs, rfl⟩ := List.mem_map.1 hd
      refine ⟨rfl, rfl, rfl, hlt' s hs, ?_⟩
      rcases Bool.eq_false_or_eq_true ((mk' a b).intersection (mk' (some s.1) (some s.2))).empty with he | he
      · exact .inl he
      · exact .inr (window_bounds a b s.1 s.2 he)) (by
      intro d hd t
      obtain ⟨s, hs, rfl⟩ := List.mem_map.1 hd
      exact inSection_mem a b s t) (by
      rw [List.pairwise_map]
      exact hap')
  rw [this]
  have hc : (∀ d ∈ secs'.map (fun s => (mk' (some s.1) (some s.2), s)), (l.filter (fun r => p d.1 r.1)).length = 1) ↔
      ∀ s ∈ secs, (inside s).length = 1 := by
    simp only [List.forall_mem_map, hpe]
    constructor
    · intro h s hs; exact h s (hperm.mem_iff.2 hs)
    · intro h s hs; exact h s (hperm.mem_iff.1 hs)
  rw [if_congr hc rfl rfl]
  congr 2
  apply meanLost_perm
  rw [List.flatMap_map]
  simp only [hpe]
  exact hperm.flatMap_right _

/-! ### Good sections -/

theorem runs_flatten {msp : Int} {idx : List Int} {runs : List (List Int)} (h : MaximalRuns msp idx runs) :
    runs.flatten = idx ∧ ∀ r ∈ runs, r ≠ [] := by
  induction h with
  | nil => simp
  | single r hne _ => simpa using hne
  | cons r a b idx runs _ hl _ _ ih =>
    refine ⟨by rw [List.flatten_cons, ih.1], ?_⟩
    intro q hq
    rcases List.mem_cons.1 hq with rfl | hq
    · rintro rfl; simp at hl
    · exact ih.2 q hq

theorem runSections_ended (runs : List (List Int)) :
    runSections false false runs = (goodRuns false runs).map (fun r => mk' r.head? r.getLast?) := by
  unfold goodRuns
  simp only [Bool.false_eq_true, if_false]
  induction runs with
  | nil => rfl
  | cons r rs ih =>
    have h1 : runSections false false (r :: rs) = runSection false false r ++ runSections false false rs := by
      cases rs with
      | nil => simp [runSections]
      | cons q rs => rfl
    rw [h1, ih]
    by_cases h2 : 2 ≤ r.length
    · rw [List.filter_cons_of_pos (by simpa using h2), List.map_cons]
      simp [runSection, h2]
    · rw [List.filter_cons_of_neg (by simpa using h2)]
      simp [runSection, h2]

theorem runSections_going (A : List (List Int)) (r : List Int) :
    runSections false true (A ++ [r]) =
      (A.filter (fun r => decide (2 ≤ r.length))).map (fun r => mk' r.head? r.getLast?) ++ [mk' r.head? none] := by
  induction A with
  | nil => simp [runSections, runSection]
  | cons q A ih =>
    have h1 : runSections false true (q :: A ++ [r]) = runSection false false q ++ runSections false true (A ++ [r]) := by
      cases A with
      | nil => rfl
      | cons q' A => rfl
    rw [h1, ih]
    by_cases h2 : 2 ≤ q.length
    · rw [List.filter_cons_of_pos (by simpa using h2), List.map_cons]
      simp [runSection, h2]
    · rw [List.filter_cons_of_neg (by simpa using h2)]
      simp [runSection, h2]

theorem periodSections_good (goesOn : Bool) (hi : Int) (runs K : List (List Int)) (r : List Int)
    (hg : goodRuns goesOn runs = K ++ [r]) :
    periodSections goesOn hi runs = K.map (fun q => mk' q.head? q.getLast?) ++
      [built r.head? (if goesOn then some hi else r.getLast?) false true] := by
  unfold periodSections
  cases goesOn with
  | false =>
    simp only [runSections_ended, hg, List.map_append, List.map_cons, List.map_nil, List.getLast?_append_cons,
      List.getLast?_singleton, List.dropLast_concat, Bool.false_eq_true, if_false]
    rfl
  | true =>
    obtain ⟨A, q, rfl⟩ : ∃ A q, runs = A ++ [q] := by
      rcases List.eq_nil_or_concat runs with rfl | ⟨A, q, rfl⟩
      · simp [goodRuns] at hg
      · exact ⟨A, q, by simp⟩
    have h1 : K = A.filter (fun r => decide (2 ≤ r.length)) ∧ q = r := by
      simp only [goodRuns, if_true, List.dropLast_concat, List.getLast?_append_cons, List.getLast?_singleton,
        Option.toList_some] at hg
      have := List.append_inj' hg.symm rfl
      exact ⟨this.1, by simpa using this.2.symm⟩
    rw [h1.1, h1.2]
    simp only [runSections_going, List.getLast?_append_cons, List.getLast?_singleton, List.dropLast_concat, if_true]
    rfl

theorem goodRuns_sublist (goesOn : Bool) (runs : List (List Int)) : (goodRuns goesOn runs).Sublist runs := by
  unfold goodRuns
  split
  · rcases List.eq_nil_or_concat runs with rfl | ⟨A, q, rfl⟩
    · simp
    · rw [List.concat_eq_append, List.dropLast_concat]
      simp only [List.getLast?_append_cons, List.getLast?_singleton, Option.toList_some]
      exact List.Sublist.append List.filter_sublist (List.Sublist.refl _)
  · exact List.filter_sublist

/-- The readings from the first of a run on, and before some time, in the whole list. -/
theorem filter_run (idx : List Int) (hs : idx.Pairwise (· < ·)) (A B r : List Int) (hi : idx = A ++ r ++ B) (x y : Int)
    (hx : r.head? = some x) (hy : r.getLast? = some y) (p : Int → Bool) (hA : ∀ t < x, p t = false)
    (hB : ∀ t > y, t ∈ idx → p t = false) (hr : ∀ t, x ≤ t → t < y → p t = true) :
    idx.filter p = if p y = true then r else r.dropLast := by
  subst hi
  obtain ⟨r', rfl⟩ : ∃ r', r = r' ++ [y] := by
    rcases List.eq_nil_or_concat r with rfl | ⟨r', z, rfl⟩
    · simp at hx
    · simp only [List.concat_eq_append, List.getLast?_append_cons, List.getLast?_singleton, Option.some.injEq] at hy
      exact ⟨r', by simp [hy]⟩
  rw [List.pairwise_append, List.pairwise_append] at hs
  obtain ⟨⟨s1, s2, s3⟩, s4, s5⟩ := hs
  have hxm : x ∈ r' ++ [y] := List.mem_of_head? hx
  have e1 : A.filter p = [] := by
    rw [List.filter_eq_nil_iff]
    intro t ht
    rw [hA t (s3 t ht x hxm)]
    simp
  have e2 : B.filter p = [] := by
    rw [List.filter_eq_nil_iff]
    intro t ht
    rw [hB t (s5 y (by simp) t ht) (by simp [ht])]
    simp
  have hxle : ∀ t ∈ r', x ≤ t := by
    intro t ht
    cases r' with
    | nil => cases ht
    | cons z r' =>
      simp only [List.cons_append, List.head?_cons, Option.some.injEq] at hx
      subst hx
      rcases List.mem_cons.1 ht with rfl | ht
      · exact le_refl _
      · exact le_of_lt ((List.pairwise_cons.1 s2).1 t (by simp [ht]))
  have e3 : r'.filter p = r' := by
    rw [List.filter_eq_self]
    intro t ht
    exact hr t (hxle t ht) ((List.pairwise_append.1 s2).2.2 t ht y (by simp))
  rw [List.filter_append, List.filter_append, e1, e2, List.filter_append, e3, List.dropLast_concat]
  by_cases hpy : p y = true
  · rw [if_pos hpy, List.filter_cons_of_pos hpy]; simp
  · rw [if_neg hpy, List.filter_cons_of_neg hpy]; simp

theorem sectionsToCompute_sorted (fs : List TF)
    (h : fs.Pairwise (fun f g => ∃ x y, f.start = some x ∧ g.start = some y ∧ x < y)) :
    sectionsToCompute fs ([] : List (RRow Unit)) = .ok fs := by
  have hall : fs.filter (fun s => !([] : List TF).any (fun t => s.eq t)) = fs := by simp
  have : sectionsToCompute fs ([] : List (RRow Unit)) =
      .ok ((tfSet (fs.filter (fun s => !([] : List TF).any (fun t => s.eq t)))).insertionSort
        (fun a b => a.start.getD 0 ≤ b.start.getD 0)) := rfl
  rw [this, hall]
  have hset : tfSet fs = fs := by
    clear hall this
    induction fs with
    | nil => rfl
    | cons f fs ih =>
      obtain ⟨p1, p2⟩ := List.pairwise_cons.1 h
      rw [tfSet, if_neg, ih p2]
      intro hany
      obtain ⟨g, hg, he⟩ := List.any_eq_true.1 hany
      obtain ⟨x, y, h1, h2, h3⟩ := p1 g hg
      simp only [TF.eq, h1, h2, Bool.and_eq_true, beq_iff_eq, Option.some.injEq] at he
      omega
  rw [hset, List.Pairwise.insertionSort_eq]
  refine h.imp ?_
  rintro f g ⟨x, y, h1, h2, h3⟩
  rw [h1, h2]
  simp only [Option.getD_some]
  omega

theorem piecesOf_nil (cs : Nat) (h : 0 < cs) (l : List Int) : piecesOf cs h l = [] ↔ l.length < 2 := by
  unfold piecesOf
  split
  · simp [*]
  · rename_i hl
    rw [overlapping]
    split <;> simp [hl]

theorem goodRuns_lengths (goesOn : Bool) (runs K : List (List Int)) (r : List Int) (hg : goodRuns goesOn runs = K ++ [r]) :
    (∀ q ∈ K, 2 ≤ q.length) ∧ (goesOn = false → 2 ≤ r.length) ∧ (goesOn = true → runs.getLast? = some r) := by
  unfold goodRuns at hg
  cases goesOn with
  | false =>
    simp only [Bool.false_eq_true, if_false] at hg
    have : ∀ q ∈ K ++ [r], 2 ≤ q.length := by
      intro q hq
      rw [← hg] at hq
      simpa using (List.mem_filter.1 hq).2
    exact ⟨fun q hq => this q (by simp [hq]), fun _ => this r (by simp), by simp⟩
  | true =>
    rcases List.eq_nil_or_concat runs with rfl | ⟨A, q, rfl⟩
    · simp at hg
    · simp only [if_true, List.concat_eq_append, List.dropLast_concat, List.getLast?_append_cons, List.getLast?_singleton,
        Option.toList_some] at hg ⊢
      have := List.append_inj' hg.symm rfl
      have hq : q = r := by simpa using this.2.symm
      refine ⟨?_, by simp, fun _ => by rw [hq]⟩
      intro k hk
      rw [this.1] at hk
      simpa using (List.mem_filter.1 hk).2

/-- The first and the last reading of a run. -/
def ends (q : List Int) : Int × Int := (q.head?.getD 0, q.getLast?.getD 0)

theorem ends_some (q : List Int) (h : q ≠ []) : q.head? = some (ends q).1 ∧ q.getLast? = some (ends q).2 ∧
    (ends q).1 ∈ q ∧ (ends q).2 ∈ q := by
  unfold ends
  cases hh : q.head? with
  | none => exact absurd (List.head?_eq_none_iff.1 hh) h
  | some x =>
    cases hl : q.getLast? with
    | none => exact absurd (List.getLast?_eq_none_iff.1 hl) h
    | some y => exact ⟨rfl, rfl, List.mem_of_head? hh, List.mem_of_getLast? hl⟩

theorem ends_lt (q : List Int) (hs : q.Pairwise (· < ·)) (h2 : 2 ≤ q.length) : (ends q).1 < (ends q).2 := by
  match q, h2 with
  | x :: y :: k, _ =>
    obtain ⟨z, hz⟩ : ∃ z, (y :: k).getLast? = some z := by
      cases hx : (y :: k).getLast? with
      | none => simp at hx
      | some z => exact ⟨z, rfl⟩
    have : ends (x :: y :: k) = (x, z) := by
      unfold ends
      rw [List.getLast?_cons_cons, hz]
      rfl
    rw [this]
    exact (List.pairwise_cons.1 hs).1 z (List.mem_of_getLast? hz)

/-- C115. By default gaps are ignored: the mean is over the pieces of the good sections, of which each but the last is read
without its last reading. -/
theorem C115_good_sections_partial (msp : Int) (hmsp : 0 ≤ msp) (ac : String) (l : List (Int × Rat))
    (hinc : l.Pairwise (fun x y => x.1 < y.1)) (sp : Rat) (hsp : 0 < sp) (a b : Option Int) (cs : Int) (hcs : 0 < cs)
    (inside : List (Int × Rat)) (hin : inside = l.filter (fun r => between a b r.1)) (h2 : 2 ≤ inside.length)
    (last : Int × Rat) (hlast : inside.getLast? = some last) (goesOn : Bool)
    (hgo : goesOn = true ↔ ∃ q ∈ l, last.1 < q.1 ∧ q.1 - last.1 ≤ msp)
    (runs : List (List Int)) (hruns : MaximalRuns msp (inside.map Prod.fst) runs) (pieces : List (List Int))
    (hpieces : pieces = (readOf (goodRuns goesOn runs)).flatMap (piecesOf cs.toNat (by omega))) :
    meterDropoutRate (some (asTable ac l)) sp msp (mk' a b) none true cs =
      if goesOn = true ∧ b = some last.1 ∧ runs.getLast? = some [last.1] then .error .valueError
      else if pieces = [] then .error .keyError
      else .ok (meanLost sp pieces) := by
  have hgs := C113_sections_partial msp hmsp ac l hinc a b cs hcs inside hin h2 last hlast goesOn hgo runs hruns
  by_cases hv : goesOn = true ∧ b = some last.1 ∧ runs.getLast? = some [last.1]
  · rw [if_pos hv] at hgs ⊢
    unfold meterDropoutRate meterDropoutResults dropoutSections
    simp only [hgs, if_true]
  rw [if_neg hv] at hgs ⊢
  have hsec : dropoutSections (asTable ac l) msp (mk' a b) none true false cs =
      .ok (some (periodSections goesOn (b.getD last.1) runs)) := by
    unfold dropoutSections
    simp only [hgs, if_true, Bool.false_eq_true, if_false]
  obtain ⟨hflat, hne⟩ := runs_flatten hruns
  have hidx : (inside.map Prod.fst).Pairwise (· < ·) := by
    rw [List.pairwise_map, hin]
    exact hinc.filter _
  have hidx' : inside.map Prod.fst = (l.map Prod.fst).filter (between a b) := by
    rw [List.filter_map, hin]
    rfl
  have hbt : ∀ t ∈ inside.map Prod.fst, between a b t = true := by
    intro t ht
    rw [hidx'] at ht
    exact (List.mem_filter.1 ht).2
  have hle : ∀ t ∈ inside.map Prod.fst, t ≤ last.1 := by
    rcases List.eq_nil_or_concat inside with h | ⟨A, q, h⟩
    · rw [h] at h2; simp at h2
    · rw [h, List.concat_eq_append, List.getLast?_append_cons, List.getLast?_singleton, Option.some.injEq] at hlast
      subst hlast
      rw [h, List.concat_eq_append, List.map_append] at hidx ⊢
      intro t ht
      rcases List.mem_append.1 ht with ht | ht
      · exact le_of_lt ((List.pairwise_append.1 hidx).2.2 t ht q.1 (by simp))
      · simp at ht; omega
  have hsorted : (∀ q ∈ runs, q.Pairwise (· < ·)) ∧ runs.Pairwise (fun q k => ∀ x ∈ q, ∀ y ∈ k, x < y) := by
    rw [← hflat] at hidx
    exact List.pairwise_flatten.1 hidx
  rcases List.eq_nil_or_concat (goodRuns goesOn runs) with hnil | ⟨K, r, hg⟩
  · have hgo' : goesOn = false := by
      cases goesOn with
      | false => rfl
      | true =>
        exfalso
        unfold goodRuns at hnil
        simp only [if_true, List.append_eq_nil_iff] at hnil
        cases hl : runs.getLast? with
        | none =>
          rw [List.getLast?_eq_none_iff] at hl
          rw [hl] at hflat
          have := congrArg List.length hflat
          simp at this
          omega
        | some q => rw [hl] at hnil; simp at hnil
    have hper : periodSections goesOn (b.getD last.1) runs = [] := by
      unfold periodSections
      rw [hgo'] at hnil ⊢
      simp only [runSections_ended, hnil]
      rfl
    rw [hper] at hsec
    rw [rate_of_sections ac l hinc sp hsp msp (mk' a b) none true cs hcs _ hsec [] rfl (fun _ _ => false) (by simp) (by simp)
      (by simp), if_pos (by simp), if_pos (by rw [hpieces, hnil]; rfl)]
  rw [List.concat_eq_append] at hg
  obtain ⟨l1, l2, l3⟩ := goodRuns_lengths goesOn runs K r hg
  have hsub := goodRuns_sublist goesOn runs
  rw [hg] at hsub
  have hmem : ∀ q ∈ K ++ [r], q ∈ runs := fun q hq => hsub.subset hq
  have hord := hsorted.2.sublist hsub
  have hrne : r ≠ [] := hne r (hmem r (by simp))
  obtain ⟨r1, r2, r3, r4⟩ := ends_some r hrne
  have hinr : ∀ q ∈ runs, ∀ t ∈ q, t ∈ inside.map Prod.fst := by
    intro q hq t ht
    rw [← hflat]
    exact List.mem_flatten.2 ⟨q, hq, ht⟩
  -- the end of the last section
  set hi : Int := if goesOn then b.getD last.1 else (ends r).2 with hhi
  have hrle : (ends r).2 ≤ last.1 := hle _ (hinr r (hmem r (by simp)) _ r4)
  have hrse : (ends r).1 ≤ (ends r).2 := by
    rcases Nat.lt_or_ge r.length 2 with h | h
    · match r, hrne, h with
      | [x], _, _ => exact le_refl _
    · exact le_of_lt (ends_lt r (hsorted.1 r (hmem r (by simp))) h)
  have hhib : (ends r).1 < hi ∧ (ends r).2 ≤ hi ∧ (∀ y, b = some y → hi ≤ y) ∧
      (∀ t ∈ inside.map Prod.fst, (ends r).2 < t → hi < t) := by
    cases hgoes : goesOn with
    | false =>
      rw [hhi, hgoes]
      simp only [Bool.false_eq_true, if_false]
      refine ⟨ends_lt r (hsorted.1 r (hmem r (by simp))) (l2 hgoes), le_refl _, ?_, fun t _ h => h⟩
      intro y hy
      have := hbt _ (hinr r (hmem r (by simp)) _ r4)
      rw [hy] at this
      simp [between] at this
      exact this.2
    | true =>
      have hlr := l3 hgoes
      obtain ⟨q, hq, q1, q2⟩ := hgo.1 hgoes
      have hlb : between a b last.1 = true := hbt _ (List.mem_map_of_mem (List.mem_of_getLast? hlast))
      have hqn : q ∉ inside := by
        intro h
        have := hle _ (List.mem_map_of_mem h)
        omega
      have hqb : between a b q.1 = false := by
        rw [hin, List.mem_filter] at hqn
        simpa [hq] using hqn
      obtain ⟨y, hy, hy1⟩ : ∃ y, b = some y ∧ last.1 ≤ y := by
        cases b with
        | none => cases a <;> simp [between] at hlb hqb; omega
        | some y => exact ⟨y, rfl, by cases a <;> simp [between] at hlb <;> omega⟩
      have hel : (ends r).2 = last.1 := by
        have hfl : inside.map Prod.fst = runs.dropLast.flatten ++ r := by
          rcases List.eq_nil_or_concat runs with h | ⟨A, k, h⟩
          · rw [h] at hlr; simp at hlr
          · rw [h, List.concat_eq_append] at hlr hflat ⊢
            rw [List.getLast?_append_cons, List.getLast?_singleton, Option.some.injEq] at hlr
            rw [← hflat, List.dropLast_concat, ← hlr]
            simp
        have h1 : (inside.map Prod.fst).getLast? = some last.1 := by rw [List.getLast?_map, hlast]; rfl
        rw [hfl, List.getLast?_append, r2] at h1
        simpa using h1
      rw [hhi, hgoes, hy]
      simp only [if_true, Option.getD_some]
      refine ⟨?_, by omega, ?_, ?_⟩
      · rcases Nat.lt_or_ge r.length 2 with h | h
        · have hone : r = [last.1] := by
            match r, hrne, h, hel with
            | [x], _, _, hel =>
              have : x = last.1 := hel
              rw [this]
          have hyl : y ≠ last.1 := by
            intro h'
            exact hv ⟨hgoes, by rw [hy, h'], by rw [hlr, hone]⟩
          omega
        · have := ends_lt r (hsorted.1 r (hmem r (by simp))) h
          omega
      · intro z hz
        cases hz
        exact le_refl _
      · intro t ht h
        have := hle t ht
        omega
  obtain ⟨hi1, hi2, hi3, hi4⟩ := hhib
  have hfa : ∀ t ∈ inside.map Prod.fst, ∀ x, a = some x → x ≤ t := by
    intro t ht x hx
    have := hbt t ht
    rw [hx] at this
    simp [between] at this
    exact this.1
  set lastSec : TF := built (some (ends r).1) (some hi) false true with hls
  have hper : periodSections goesOn (b.getD last.1) runs = (K.map (fun q => mk' (some (ends q).1) (some (ends q).2))) ++ [lastSec] := by
    rw [periodSections_good goesOn _ runs K r hg]
    congr 1
    · apply List.map_congr_left
      intro q hq
      obtain ⟨q1, q2, _⟩ := ends_some q (hne q (hmem q (by simp [hq])))
      rw [q1, q2]
    · rw [hls, hhi, r1, r2]
      cases goesOn <;> rfl
  have hlw : (mk' a b).intersection lastSec = lastSec := window_and_section a b _ _ hi1
    (fun x hx => hfa _ (hinr r (hmem r (by simp)) _ r3) x hx) hi3
  set ds : List (TF × (Int × Int)) := K.map (fun q => (mk' (some (ends q).1) (some (ends q).2), ends q)) ++
    [(lastSec, ((ends r).1, hi))] with hds
  have hKord : ∀ q ∈ K, (ends q).1 < (ends q).2 := fun q hq => ends_lt q (hsorted.1 q (hmem q (by simp [hq]))) (l1 q hq)
  have hKK : K.Pairwise (fun q k => (ends q).2 < (ends k).1) := by
    refine (List.Pairwise.and_mem.1 (List.pairwise_append.1 hord).1).imp ?_
    rintro q k ⟨hq, hk, h⟩
    exact h _ (ends_some q (hne q (hmem q (by simp [hq])))).2.2.2 _ (ends_some k (hne k (hmem k (by simp [hk])))).2.2.1
  have hKr : ∀ q ∈ K, (ends q).2 < (ends r).1 := by
    intro q hq
    exact (List.pairwise_append.1 hord).2.2 q hq r (by simp) _ (ends_some q (hne q (hmem q (by simp [hq])))).2.2.2 _ r3
  have hstat : statSections (asTable ac l).rows (mk' a b) (some (periodSections goesOn (b.getD last.1) runs)) =
      .ok (ds.map Prod.fst) := by
    have hmap : ds.map Prod.fst = periodSections goesOn (b.getD last.1) runs := by
      rw [hper, hds, List.map_append, List.map_map]
      rfl
    rw [hmap]
    simp only [statSections]
    rw [List.filter_eq_self.2 (by
      intro f hf
      rw [hper] at hf
      rcases List.mem_append.1 hf with hf | hf
      · obtain ⟨q, _, rfl⟩ := List.mem_map.1 hf; rfl
      · simp only [List.mem_singleton] at hf; subst hf; rfl)]
    apply sectionsToCompute_sorted
    rw [hper, List.pairwise_append, List.pairwise_map]
    refine ⟨(List.Pairwise.and_mem.1 hKK).imp ?_, by simp, ?_⟩
    · rintro q k ⟨hq, hk, h⟩
      have := hKord q hq
      exact ⟨_, _, rfl, rfl, by omega⟩
    · intro f hf g hg'
      obtain ⟨q, hq, rfl⟩ := List.mem_map.1 hf
      simp only [List.mem_singleton] at hg'
      subst hg'
      have h1 := hKord q hq
      have h3 := hKr q hq
      exact ⟨_, _, rfl, rfl, by omega⟩
  set p : TF → Int → Bool := fun f t => @decide (Mem t ((mk' a b).intersection f)) (Classical.propDecidable _) with hpdef
  have hp : ∀ f t, p f t = true ↔ Mem t ((mk' a b).intersection f) := by
    intro f t
    simp only [hpdef, decide_eq_true_iff]
  have hfil : ∀ f, (∀ t, p f t = true → between a b t = true) →
      (l.filter (fun r => p f r.1)).map Prod.fst = (inside.map Prod.fst).filter (p f) := by
    intro f hf
    rw [hidx', List.filter_filter]
    have : (l.filter (fun r => p f r.1)).map Prod.fst = (l.map Prod.fst).filter (p f) := by
      rw [List.filter_map]; rfl
    rw [this]
    apply List.filter_congr
    intro t _
    cases h : p f t with
    | false => simp
    | true => rw [hf t h]; rfl
  have hsplit : ∀ q ∈ runs, ∃ A B, inside.map Prod.fst = A ++ q ++ B := by
    intro q hq
    obtain ⟨A, B, h⟩ := List.append_of_mem hq
    exact ⟨A.flatten, B.flatten, by rw [← hflat, h]; simp⟩
  have hpK : ∀ q ∈ K, (l.filter (fun r => p (mk' (some (ends q).1) (some (ends q).2)) r.1)).map Prod.fst = q.dropLast := by
    intro q hq
    have hm : ∀ t, p (mk' (some (ends q).1) (some (ends q).2)) t = true ↔ inSection a b (ends q) t = true := by
      intro t; rw [hp, inSection_mem]
    obtain ⟨q1, q2, q3, q4⟩ := ends_some q (hne q (hmem q (by simp [hq])))
    have hinq : ∀ t, inSection a b (ends q) t = true ↔ ((ends q).1 ≤ t ∧ t < (ends q).2) := by
      intro t
      have b1 := hbt _ (hinr q (hmem q (by simp [hq])) _ q3)
      have b2 := hbt _ (hinr q (hmem q (by simp [hq])) _ q4)
      cases a <;> cases b <;> simp [inSection, between] at b1 b2 ⊢ <;> omega
    rw [hfil _ (by
      intro t ht
      have h1 := (hinq t).1 ((hm t).1 ht)
      have b1 := hbt _ (hinr q (hmem q (by simp [hq])) _ q3)
      have b2 := hbt _ (hinr q (hmem q (by simp [hq])) _ q4)
      cases a <;> cases b <;> simp [between] at b1 b2 ⊢ <;> omega)]
    obtain ⟨A, B, hAB⟩ := hsplit q (hmem q (by simp [hq]))
    have hb' : ∀ t, p (mk' (some (ends q).1) (some (ends q).2)) t = decide ((ends q).1 ≤ t ∧ t < (ends q).2) := by
      intro t
      rw [Bool.eq_iff_iff, hm, hinq, decide_eq_true_iff]
    rw [filter_run _ hidx A B q hAB _ _ q1 q2 _ (by intro t ht; rw [hb']; simp; omega) (by intro t ht _; rw [hb']; simp; omega)
      (by intro t h1 h3; rw [hb']; simp; omega), if_neg (by rw [hb']; simp)]
  have hpr : (l.filter (fun r => p lastSec r.1)).map Prod.fst = r := by
    have hm : ∀ t, p lastSec t = decide ((ends r).1 ≤ t ∧ t ≤ hi) := by
      intro t
      rw [Bool.eq_iff_iff, hp, hlw, decide_eq_true_iff]
      simp [Mem, hls, built, TF.start, TF.stop]
      omega
    rw [hfil _ (by
      intro t ht
      rw [hm, decide_eq_true_iff] at ht
      have b1 := hbt _ (hinr r (hmem r (by simp)) _ r3)
      cases a <;> cases b <;> simp [between] at b1 hi3 ⊢ <;> omega)]
    obtain ⟨A, B, hAB⟩ := hsplit r (hmem r (by simp))
    rw [filter_run _ hidx A B r hAB _ _ r1 r2 _ (by intro t ht; rw [hm]; simp; omega)
      (by intro t ht hti; rw [hm]; have := hi4 t hti ht; simp; omega)
      (by intro t h1 h3; rw [hm]; simp; omega), if_pos (by rw [hm]; simp; omega)]
  have hmain := rate_of_sections ac l hinc sp hsp msp (mk' a b) none true cs hcs _ hsec ds hstat p (by
      intro d hd
      rw [hds] at hd
      rcases List.mem_append.1 hd with hd | hd
      · obtain ⟨q, hq, rfl⟩ := List.mem_map.1 hd
        refine ⟨rfl, rfl, rfl, hKord q hq, ?_⟩
        rcases Bool.eq_false_or_eq_true ((mk' a b).intersection (mk' (some (ends q).1) (some (ends q).2))).empty with he | he
        · exact .inl he
        · exact .inr (window_bounds a b _ _ he)
      · simp only [List.mem_singleton] at hd
        subst hd
        exact ⟨rfl, rfl, rfl, hi1, .inr ⟨_, _, by rw [hlw]; rfl, by rw [hlw]; rfl, hi1, le_refl _, le_refl _⟩⟩)
    (fun d _ t => hp d.1 t) (by
      rw [hds, List.pairwise_append, List.pairwise_map]
      refine ⟨hKK.imp (fun h => .inl (le_of_lt h)), by simp, ?_⟩
      intro d hd e he
      obtain ⟨q, hq, rfl⟩ := List.mem_map.1 hd
      simp only [List.mem_singleton] at he
      subst he
      exact .inl (le_of_lt (hKr q hq)))
  rw [hmain]
  have hpe : ds.flatMap (fun d => piecesOf cs.toNat (by omega) ((l.filter (fun r => p d.1 r.1)).map Prod.fst)) = pieces := by
    rw [hpieces, hg, hds, readOf, List.dropLast_concat]
    simp only [List.getLast?_append_cons, List.getLast?_singleton, Option.toList_some, List.flatMap_append, List.flatMap_cons,
      List.flatMap_nil, List.append_nil, hpr, List.flatMap_map]
    congr 1
    rw [List.flatMap_def, List.flatMap_def]
    congr 1
    apply List.map_congr_left
    intro q hq
    rw [hpK q hq]
  rw [hpe]
  have hcond : (∀ d ∈ ds, (l.filter (fun r => p d.1 r.1)).length = 1) ↔ pieces = [] := by
    rw [← hpe, List.flatMap_eq_nil_iff]
    have hlen : ∀ d ∈ ds, 1 ≤ (l.filter (fun r => p d.1 r.1)).length := by
      intro d hd
      have e : (l.filter (fun r => p d.1 r.1)).length = ((l.filter (fun r => p d.1 r.1)).map Prod.fst).length := by
        rw [List.length_map]
      rw [e]
      rw [hds] at hd
      rcases List.mem_append.1 hd with hd | hd
      · obtain ⟨q, hq, rfl⟩ := List.mem_map.1 hd
        simp only
        rw [hpK q hq, List.length_dropLast]
        have := l1 q hq
        omega
      · simp only [List.mem_singleton] at hd
        subst hd
        simp only
        rw [hpr]
        exact List.length_pos_iff.2 hrne
    constructor
    · intro h d hd
      rw [piecesOf_nil, List.length_map, h d hd]
      omega
    · intro h d hd
      have h1 := h d hd
      rw [piecesOf_nil, List.length_map] at h1
      have := hlen d hd
      omega
  by_cases hc : pieces = []
  · rw [if_pos hc, if_pos (hcond.2 hc)]
  · rw [if_neg hc, if_neg (fun h => hc (hcond.1 h))]

theorem pieces_infix (cs : Nat) (h : 0 < cs) (msp : Int) (goesOn : Bool) (idx : List Int) (runs : List (List Int))
    (hruns : MaximalRuns msp idx runs) : ∀ k ∈ (readOf (goodRuns goesOn runs)).flatMap (piecesOf cs h), k <:+: idx := by
  intro k hk
  obtain ⟨q, hq, hk⟩ := List.mem_flatMap.1 hk
  obtain ⟨r, hr, hqr⟩ := readOf_infix _ q hq
  have hkq : k <:+: q := by
    unfold piecesOf at hk
    split at hk
    · cases hk
    · exact overlapping_infix cs h q k hk
  obtain ⟨A, B, hAB⟩ := List.append_of_mem ((goodRuns_sublist goesOn runs).subset hr)
  have hri : r <:+: idx := ⟨A.flatten, B.flatten, by rw [← (runs_flatten hruns).1, hAB]; simp⟩
  exact (hkq.trans hqr).trans hri

theorem filter_between_infix (a b : Option Int) (k : List Int) (hs : k.Pairwise (· < ·)) : k.filter (between a b) <:+: k := by
  induction k with
  | nil => simp
  | cons x k ih =>
    obtain ⟨p1, p2⟩ := List.pairwise_cons.1 hs
    by_cases h : between a b x = true
    · rw [List.filter_cons_of_pos h]
      have hpre : k.filter (between a b) <+: k := by
        clear ih hs
        induction k generalizing x with
        | nil => simp
        | cons y k ih =>
          obtain ⟨q1, q2⟩ := List.pairwise_cons.1 p2
          by_cases h' : between a b y = true
          · rw [List.filter_cons_of_pos h']
            exact (List.cons_prefix_cons.2 ⟨rfl, ih y q1 q2 h'⟩)
          · rw [List.filter_cons_of_neg h']
            have : k.filter (between a b) = [] := by
              rw [List.filter_eq_nil_iff]
              intro t ht ht'
              have h1 := p1 y (by simp)
              have h2 := q1 t ht
              cases a <;> cases b <;> simp [between] at h h' ht' <;> omega
            rw [this]
            exact List.nil_prefix
      exact (List.cons_prefix_cons.2 ⟨rfl, hpre⟩).isInfix
    · rw [List.filter_cons_of_neg h]
      exact (ih p2).trans (List.suffix_cons x k).isInfix

/-- C115. Whatever is reported is at least zero and below one. -/
theorem C115_bounds (msp : Int) (hmsp : 0 ≤ msp) (ac : String) (l : List (Int × Rat))
    (hinc : l.Pairwise (fun x y => x.1 < y.1)) (sp : Rat) (hsp : 0 < sp) (a b : Option Int) (cs : Int) (hcs : 0 < cs)
    (h2 : 2 ≤ (l.filter (fun r => between a b r.1)).length) (ignoreGaps : Bool) (v : Rat)
    (hv : meterDropoutRate (some (asTable ac l)) sp msp (mk' a b) none ignoreGaps cs = .ok v) : 0 ≤ v ∧ v < 1 := by
  obtain ⟨inside, hin⟩ : ∃ k, k = l.filter (fun r => between a b r.1) := ⟨_, rfl⟩
  rw [← hin] at h2
  have hs : (inside.map Prod.fst).Pairwise (· < ·) := by
    rw [List.pairwise_map, hin]
    exact hinc.filter _
  cases ignoreGaps with
  | false =>
    rw [C115_pieces_partial ac l hinc sp hsp msp a b cs hcs inside hin h2] at hv
    cases hv
    exact meanLost_bounds sp hsp _ (fun k hk => hs.sublist (overlapping_infix _ _ _ k hk).sublist)
  | true =>
    obtain ⟨last, hlast⟩ : ∃ q, inside.getLast? = some q := by
      cases h : inside.getLast? with
      | none => rw [List.getLast?_eq_none_iff] at h; rw [h] at h2; simp at h2
      | some q => exact ⟨q, rfl⟩
    obtain ⟨runs, hruns⟩ := maximalRuns_exist msp (inside.map Prod.fst)
    rw [C115_good_sections_partial msp hmsp ac l hinc sp hsp a b cs hcs inside hin h2 last hlast
      (decide (∃ q ∈ l, last.1 < q.1 ∧ q.1 - last.1 ≤ msp)) (by rw [decide_eq_true_iff]) runs hruns
      _ rfl] at hv
    split at hv
    · cases hv
    · split at hv
      · cases hv
      · cases hv
        exact meanLost_bounds sp hsp _ (fun k hk => hs.sublist (pieces_infix _ _ _ _ _ _ hruns k hk).sublist)

theorem meanLost_zero (sp : Rat) (ls : List (List Int)) (h : ∀ k ∈ ls, lostShare sp k = 0) : meanLost sp ls = 0 := by
  unfold meanLost
  have : (ls.map (fun l => lostShare sp l * (l.length : Rat))).sum = 0 := by
    induction ls with
    | nil => rfl
    | cons k ls ih =>
      rw [List.map_cons, List.sum_cons, ih (fun q hq => h q (List.mem_cons_of_mem _ hq)), h k List.mem_cons_self]
      simp
  rw [this, zero_div]

/-- C115. A meter that lost nothing has dropout rate zero, whatever the chunk size and the window, whether or not gaps are
ignored. -/
theorem C115_complete (msp d : Int) (hd : 0 < d) (hmsp : d ≤ msp) (ac : String) (l : List (Int × Rat))
    (hreg : (l.map Prod.fst).IsChain (fun x y => y - x = d)) (a b : Option Int) (cs : Int) (hcs : 0 < cs)
    (h2 : 2 ≤ (l.filter (fun r => between a b r.1)).length) (ignoreGaps : Bool) :
    meterDropoutRate (some (asTable ac l)) ((d : Rat) / 1000000000) msp (mk' a b) none ignoreGaps cs = .ok 0 := by
  obtain ⟨inside, hin⟩ : ∃ k, k = l.filter (fun r => between a b r.1) := ⟨_, rfl⟩
  rw [← hin] at h2
  have hsp : (0 : Rat) < (d : Rat) / 1000000000 := by
    have : (0 : Rat) < d := by exact_mod_cast hd
    positivity
  have hlt : (l.map Prod.fst).IsChain (· < ·) := hreg.imp (fun x y h => by omega)
  have hinc' : (l.map Prod.fst).Pairwise (· < ·) := List.isChain_iff_pairwise.1 hlt
  have hinc : l.Pairwise (fun x y => x.1 < y.1) := by rw [List.pairwise_map] at hinc'; exact hinc'
  have hinf : inside.map Prod.fst <:+: l.map Prod.fst := by
    have hidx' : inside.map Prod.fst = (l.map Prod.fst).filter (between a b) := by
      rw [List.filter_map, hin]
      rfl
    rw [hidx']
    generalize l.map Prod.fst = k at hinc'
    exact filter_between_infix a b k hinc'
  have hchain : (inside.map Prod.fst).IsChain (fun x y => y - x = d) := hreg.infix hinf
  cases ignoreGaps with
  | false =>
    rw [C115_pieces_partial ac l hinc _ hsp msp a b cs hcs inside hin h2]
    rw [meanLost_zero _ _ (fun k hk => lostShare_regular d hd k (hchain.infix (overlapping_infix _ _ _ k hk)))]
  | true =>
    obtain ⟨last, hlast⟩ : ∃ q, inside.getLast? = some q := by
      cases h : inside.getLast? with
      | none => rw [List.getLast?_eq_none_iff] at h; rw [h] at h2; simp at h2
      | some q => exact ⟨q, rfl⟩
    have hgap : GapFree msp (inside.map Prod.fst) := by
      generalize inside.map Prod.fst = k at hchain
      induction k with
      | nil => trivial
      | cons x k ih =>
        cases k with
        | nil => trivial
        | cons y k =>
          rw [List.isChain_cons_cons] at hchain
          exact ⟨by omega, ih hchain.2⟩
    have hruns : MaximalRuns msp (inside.map Prod.fst) [inside.map Prod.fst] :=
      .single _ (by intro h; rw [List.map_eq_nil_iff] at h; rw [h] at h2; simp at h2) hgap
    have hgood : ∀ g, goodRuns g [inside.map Prod.fst] = [inside.map Prod.fst] := by
      intro g
      cases g <;> simp [goodRuns, h2]
    rw [C115_good_sections_partial msp (by omega) ac l hinc _ hsp a b cs hcs inside hin h2 last hlast
      (decide (∃ q ∈ l, last.1 < q.1 ∧ q.1 - last.1 ≤ msp)) (by rw [decide_eq_true_iff])
      [inside.map Prod.fst] hruns _ rfl]
    rw [if_neg, if_neg, meanLost_zero _ _ (fun k hk => lostShare_regular d hd k (hchain.infix (pieces_infix _ _ _ _ _ _ hruns k hk)))]
    · rw [hgood]
      simp only [readOf, List.dropLast_singleton, List.map_nil, List.getLast?_singleton, Option.toList_some, List.nil_append,
        List.flatMap_cons, List.flatMap_nil, List.append_nil]
      rw [piecesOf_nil, List.length_map]
      omega
    · rintro ⟨_, _, h⟩
      have := congrArg (Option.map List.length) h
      simp at this
      omega

/-- C115. Ignoring gaps is asking for the good sections of the sections given; what they fail with is passed on. -/
theorem C115_ignore_gaps (t : Option (RawTable (Option Rat))) (sp : Rat) (msp : Int) (window : TF)
    (sections : Option (List TF)) (cs : Int) :
    (∀ good, meterGoodSections t msp window sections cs = .ok good →
      meterDropoutRate t sp msp window sections true cs = meterDropoutRate t sp msp window (some good) false cs) ∧
    (∀ e, meterGoodSections t msp window sections cs = .error e →
      meterDropoutRate t sp msp window sections true cs = .error e) := by
  cases t with
  | none =>
    refine ⟨fun good h => rfl, fun e h => ?_⟩
    cases h
    rfl
  | some t =>
    refine ⟨fun good h => ?_, fun e h => ?_⟩
    · unfold meterDropoutRate meterDropoutResults dropoutSections
      simp [h]
    · unfold meterDropoutRate meterDropoutResults dropoutSections
      simp [h]

/-- C115. What reading the sections fails with is passed on. -/
theorem C115_load_error (t : RawTable (Option Rat)) (sp : Rat) (msp : Int) (window : TF) (sections : List TF) (full : Bool)
    (cs : Int) (secs : List TF) (hsecs : statSections t.rows window (some sections) = .ok secs) (hne : secs ≠ [])
    (e : Err) (he : (hdfLoad (some t.rows) window (some secs) 0 cs).1.err = some e) (res : List (RRow DRow)) :
    meterDropoutResults (some t) sp msp window (some sections) false full cs ≠ .ok res := by
  unfold meterDropoutResults dropoutSections
  cases secs with
  | nil => exact absurd rfl hne
  | cons s ss =>
    simp only [Bool.false_eq_true, if_false, hsecs]
    unfold computeDropout
    split
    · simp
    · simp [he]

/-- C115. With `full_results=True` and gaps ignored (the default) the call never returns. -/
theorem C115_full_results (t : Option (RawTable (Option Rat))) (sp : Rat) (msp : Int) (window : TF)
    (sections : Option (List TF)) (cs : Int) (res : List (RRow DRow)) :
    meterDropoutResults t sp msp window sections true true cs ≠ .ok res := by
  unfold meterDropoutResults dropoutSections
  cases t with
  | none => simp
  | some t =>
    cases h : meterGoodSections (some t) msp window sections cs with
    | error e => simp [h]
    | ok good => simp [h]

/-- C115. Fewer than two readings in the window: there is no good section, and the call fails with `KeyError`. -/
theorem C115_few_readings (msp : Int) (ac : String) (l : List (Int × Rat))
    (hinc : l.Pairwise (fun x y => x.1 < y.1)) (h2 : 2 ≤ l.length) (sp : Rat) (hsp : 0 < sp) (a b : Option Int) (cs : Int)
    (hcs : 0 < cs) (hin : (l.filter (fun r => between a b r.1)).length < 2) :
    meterDropoutRate (some (asTable ac l)) sp msp (mk' a b) none true cs = .error .keyError := by
  have hgs := C113_few_readings msp ac l hinc h2 a b cs hcs hin
  have hsec : dropoutSections (asTable ac l) msp (mk' a b) none true false cs = .ok (some []) := by
    unfold dropoutSections
    simp only [hgs, if_true, Bool.false_eq_true, if_false]
  rw [rate_of_sections ac l hinc sp hsp msp (mk' a b) none true cs hcs _ hsec [] rfl (fun _ _ => false) (by simp) (by simp)
      (by simp), if_pos (by simp)]

/-- C115. A meter without a table: `KeyError`. -/
theorem C115_no_table (sp : Rat) (msp : Int) (window : TF) (sections : Option (List TF)) (ignoreGaps full : Bool) (cs : Int) :
    meterDropoutRate none sp msp window sections ignoreGaps cs = .error .keyError ∧
    meterDropoutResults none sp msp window sections ignoreGaps full cs = .error .keyError := ⟨rfl, rfl⟩

theorem scaled_increasing (order : List (Int × Rat)) (hord : order.Pairwise (fun x y => x.1 < y.1)) :
    (order.map (fun r => (r.1 * 1000000000, r.2))).Pairwise (fun x y => x.1 < y.1) := by
  rw [List.pairwise_map]
  exact hord.imp (fun h => by simp only; omega)

/-- C115. From the file of a channel of REDD to the dropout rate of the meter, read in one chunk: the share of the readings
lost between the first and the last one in the window. -/
theorem C115_redd_partial {sort : List (Int × Option Rat) → List (Int × Option Rat)} (hs : SortsByTime sort)
    {tree : RawTree (Option Rat)} (hx : ExpectedTree tree) (house chan : Nat) (hh : house ≤ 9) (hc : chan ≤ 99)
    (file order : List (Int × Rat)) (hf : ChannelFile tree house chan (asFile file)) (hp : order.Perm file)
    (hord : order.Pairwise (fun x y => x.1 < y.1)) (sp : Rat) (hsp : 0 < sp) (msp : Int) (a b : Option Int)
    (inside : List Int) (hin : inside = ((order.map Prod.fst).map (· * 1000000000)).filter (between a b)) (h2 : 2 ≤ inside.length)
    (cs : Int) (hcs : (inside.length : Int) ≤ cs + 1) :
    meterDropoutRate ((convertRedd sort (some tree)).1 (meterKey house chan)) sp msp (mk' a b) none false cs =
      .ok (lostShare sp inside) := by
  have he : inside = ((order.map (fun r => (r.1 * 1000000000, r.2))).filter (fun r => between a b r.1)).map Prod.fst := by
    rw [hin]
    have : (order.map Prod.fst).map (· * 1000000000) = (order.map (fun r => (r.1 * 1000000000, r.2))).map Prod.fst := by
      rw [List.map_map, List.map_map]; rfl
    rw [this, List.filter_map]
    rfl
  rw [redd_table hs hx house chan hh hc file order hf hp hord, he]
  rw [he, List.length_map] at h2 hcs
  exact C115_one_chunk_partial _ _ (scaled_increasing order hord) sp hsp msp a b cs _ rfl h2 hcs

/-- C115. The same by default: the mean over the good sections. -/
theorem C115_redd_good_partial {sort : List (Int × Option Rat) → List (Int × Option Rat)} (hs : SortsByTime sort)
    {tree : RawTree (Option Rat)} (hx : ExpectedTree tree) (house chan : Nat) (hh : house ≤ 9) (hc : chan ≤ 99)
    (file order : List (Int × Rat)) (hf : ChannelFile tree house chan (asFile file)) (hp : order.Perm file)
    (hord : order.Pairwise (fun x y => x.1 < y.1)) (h2 : 2 ≤ file.length) (sp : Rat) (hsp : 0 < sp) (msp : Int) (hmsp : 0 ≤ msp)
    (runs : List (List Int)) (hruns : MaximalRuns msp ((order.map Prod.fst).map (· * 1000000000)) runs) (cs : Int) (hcs : 0 < cs)
    (pieces : List (List Int)) (hpieces : pieces = (readOf (goodRuns false runs)).flatMap (piecesOf cs.toNat (by omega))) :
    meterDropoutRate ((convertRedd sort (some tree)).1 (meterKey house chan)) sp msp TF.blank none true cs =
      if pieces = [] then .error .keyError else .ok (meanLost sp pieces) := by
  have hm : (order.map Prod.fst).map (· * 1000000000) = (order.map (fun r => (r.1 * 1000000000, r.2))).map Prod.fst := by
    rw [List.map_map, List.map_map]; rfl
  rw [redd_table hs hx house chan hh hc file order hf hp hord]
  rw [hm] at hruns
  have hinc := scaled_increasing order hord
  have h2' : 2 ≤ (order.map (fun r => (r.1 * 1000000000, r.2))).length := by rw [List.length_map, hp.length_eq]; exact h2
  generalize order.map (fun r => (r.1 * 1000000000, r.2)) = l at hruns hinc h2'
  have hall : l = l.filter (fun r => between none none r.1) := by
    rw [List.filter_eq_self.2]
    intro r _
    rfl
  obtain ⟨last, hlast⟩ : ∃ q, l.getLast? = some q := by
    cases h : l.getLast? with
    | none => rw [List.getLast?_eq_none_iff] at h; rw [h] at h2'; simp at h2'
    | some q => exact ⟨q, rfl⟩
  have hno : ¬ ∃ q ∈ l, last.1 < q.1 ∧ q.1 - last.1 ≤ msp := by
    rintro ⟨q, hq, h, _⟩
    rcases List.eq_nil_or_concat l with h' | ⟨A, k, h'⟩
    · rw [h'] at hq; cases hq
    · rw [h', List.concat_eq_append] at hlast hq hinc
      rw [List.getLast?_append_cons, List.getLast?_singleton, Option.some.injEq] at hlast
      subst hlast
      rcases List.mem_append.1 hq with hq | hq
      · have := (List.pairwise_append.1 hinc).2.2 q hq k (by simp)
        omega
      · simp at hq; subst hq; omega
  have := C115_good_sections_partial msp hmsp (if chan = 1 ∨ chan = 2 then "apparent" else "active") l hinc sp hsp none none cs
    hcs l hall h2' last hlast false (by simp only [Bool.false_eq_true, false_iff]; exact hno) runs hruns pieces hpieces
  rw [if_neg (show ¬ (false = true ∧ (none : Option Int) = some last.1 ∧ _) from fun h => Bool.false_ne_true h.1)] at this
  exact this

/-! ### Limits and examples -/

/-- C115, limits: half of the readings between the first and the last are lost, but the rate depends on the chunk size. -/
theorem C115_chunk_size_counterexample :
    (meterDropoutRate (some (asTable "active" ([0, 1, 2, 3, 4, 14, 15, 16, 17, 18].map (fun t => (t * 1000000000, 5))))) 1 3000000000
      TF.blank none false 100 = .ok (9 / 19)) ∧
    (meterDropoutRate (some (asTable "active" ([0, 1, 2, 3, 4, 14, 15, 16, 17, 18].map (fun t => (t * 1000000000, 5))))) 1 3000000000
      TF.blank none false 4 = .ok (15 / 56)) := by
  constructor <;> decide +kernel

/-- C115, limits: in the first good section one of six readings is lost, but its last reading is not read, and four readings
count as complete. -/
theorem C115_last_reading_counterexample :
    (meterDropoutRate (some (asTable "active" ([0, 2, 3, 4, 5, 100, 101, 102, 103, 104].map (fun t => (t * 1000000000, 5))))) 1
      3000000000 TF.blank none true 100 = .ok 0) ∧
    (meterDropoutRate (some (asTable "active" ([0, 2, 3, 4, 5].map (fun t => (t * 1000000000, 5))))) 1
      3000000000 TF.blank none true 100 = .ok (1 / 6)) := by
  constructor <;> decide +kernel

/-- The hypotheses of `C115_load_error`: no section bounds, and one row left for the last chunk. -/
example : (hdfLoad (some [(0, some (1 : Rat)), (10, some 2), (20, some 3)]) TF.blank (some [TF.blank]) 0 2).1.err = some .valueError ∧
    statSections [(0, some (1 : Rat)), (10, some 2), (20, some 3)] TF.blank (some [TF.blank]) = .ok [TF.blank] := by
  constructor <;> decide +kernel

/-- The hypotheses of C115 for the good sections of a window in which the last run goes on. -/
example : ∃ runs, MaximalRuns 3 [0, 2, 3, 100, 101] runs ∧ goodRuns true runs = [[0, 2, 3], [100, 101]] ∧
    readOf (goodRuns true runs) = [[0, 2], [100, 101]] :=
  ⟨[[0, 2, 3], [100, 101]], .cons [0, 2, 3] 3 100 [101] _ ⟨by decide, by decide, trivial⟩ rfl (by decide)
    (.single _ (by simp) ⟨by decide, trivial⟩), by decide, by decide⟩

/-- The rate of that window. -/
example : meterDropoutRate (some (asTable "active" [(0, 1), (2, 1), (3, 1), (100, 1), (101, 1), (102, 1)])) 1 3
    (mk' (some 0) (some 101)) none true 100 = .ok 0 := by
  rw [C115_good_sections_partial 3 (by decide) "active" _ (by decide) 1 (by decide) (some 0) (some 101) 100 (by decide) _ rfl
    (by decide) (101, 1) (by decide +kernel) true (by decide) [[0, 2, 3], [100, 101]]
    (.cons [0, 2, 3] 3 100 [101] _ ⟨by decide, by decide, trivial⟩ rfl (by decide)
    (.single _ (by simp) ⟨by decide, trivial⟩)) [[0, 2], [100, 101]] (by
      have : readOf (goodRuns true [[0, 2, 3], [100, 101]]) = [[0, 2], [100, 101]] := by decide
      rw [this]
      simp [piecesOf, overlapping])]
  decide +kernel

/-- Two sections with readings lost, given in reverse order and twice. -/
example : meterDropoutRate (some (asTable "active" ([0, 2, 3, 4, 5, 100, 102, 104, 105, 106].map (fun t => (t * 1000000000, 5))))) 1
    3000000000 TF.blank (some [mk' (some 50000000000) (some 200000000000), mk' (some 0) (some 50000000000),
      mk' (some 50000000000) (some 200000000000)]) false 100 = .ok (19 / 84) := by decide +kernel

/-- A regular meter in chunks of two rows. -/
example : meterDropoutRate (some (asTable "active" [(0, 1), (6, 1), (12, 1), (18, 1), (24, 1), (30, 1)])) ((6 : Int) / 1000000000) 20
    (mk' none (some 24)) none true 2 = .ok 0 :=
  C115_complete 20 6 (by decide) (by decide) "active" _ (by decide) none (some 24) 2 (by decide) (by decide) true

end Nilmtk
