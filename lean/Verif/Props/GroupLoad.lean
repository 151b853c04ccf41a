import Verif.Model.GroupLoad
import Verif.Props.Combine
import Verif.Props.Resample
import Verif.Props.Measurement
import Verif.Props.TimeFrame
import Verif.Props.Experiment
/-!
C85: loading a group in chunks.
-/
namespace Nilmtk
open TF

/-! ### Specification -/

/-- Specification: `l` lists, in order and without repetition, the times `s`, `s + n`, `s + 2n`, ... before `e`. -/
def IsGrid (n s e : Int) (l : List Int) : Prop :=
  l.Pairwise (· < ·) ∧ ∀ t, t ∈ l ↔ s ≤ t ∧ t < e ∧ n ∣ t - s

/-- The rows of a chunk, in one column. -/
def chunkRows (col : Nat) (c : LChunk) : List (Int × Option Rat) := c.index.zip (c.cells.getD col [])

/-! ### Lemmas -/

theorem dateRange_grid (n s e : Int) (hn : 0 < n) : IsGrid n s e (dateRangeLeft n s e) := by
  unfold dateRangeLeft IsGrid
  constructor
  · rw [List.pairwise_map]
    apply List.Pairwise.imp _ List.pairwise_lt_range
    intro a b hab
    have : (a : Int) * n < b * n := Int.mul_lt_mul_of_pos_right (by exact_mod_cast hab) hn
    omega
  · intro t
    simp only [List.mem_map, List.mem_range]
    constructor
    · rintro ⟨i, hi, rfl⟩
      have h1 : (i : Int) < (e - s + n - 1) / n := by omega
      have h2 : ((i : Int) + 1) * n ≤ e - s + n - 1 :=
        le_trans (Int.mul_le_mul_of_nonneg_right (by omega) hn.le) (Int.ediv_mul_le _ (by omega))
      have h3 : ((i : Int) + 1) * n = i * n + n := by ring
      have h4 : 0 ≤ (i : Int) * n := by positivity
      exact ⟨by omega, by omega, ⟨i, by ring⟩⟩
    · rintro ⟨h1, h2, q, hq⟩
      have hq0 : 0 ≤ q := by
        by_contra hneg
        have : n * q < 0 := Int.mul_neg_of_pos_of_neg hn (by omega)
        omega
      refine ⟨q.toNat, ?_, ?_⟩
      · have : q < (e - s + n - 1) / n := by
          apply Int.lt_of_add_one_le
          rw [Int.le_ediv_iff_mul_le hn]
          have : (q + 1) * n = n * q + n := by ring
          omega
        omega
      · have : ((q.toNat : Nat) : Int) = q := by omega
        rw [this]
        have : q * n = n * q := by ring
        omega

/-- Two lists of the same grid are equal. -/
theorem grid_unique {n s e : Int} {l l' : List Int} (h : IsGrid n s e l) (h' : IsGrid n s e l') : l = l' := by
  have hp : l.Perm l' := by
    rw [List.perm_ext_iff_of_nodup]
    · intro t; rw [h.2, h'.2]
    · exact h.1.imp (fun hab => ne_of_lt hab)
    · exact h'.1.imp (fun hab => ne_of_lt hab)
  exact hp.eq_of_pairwise (fun a b _ _ h1 h2 => absurd h1 (not_lt.2 h2.le)) h.1 h'.1

theorem dateRange_length (n s e : Int) : (dateRangeLeft n s e).length = ((e - s + n - 1) / n).toNat := by
  simp [dateRangeLeft]

theorem freqNs_nat (m : Nat) : freqNs (m : Rat) = m * 1000000000 := by
  simp [freqNs]

theorem roundEven_ofInt (z : Int) : roundEven (z : Rat) = z := by simp [roundEven]

theorem thresholdNs_nat (m : Nat) (c : Int) : thresholdNs (m : Rat) c = c * (m * 1000000000) := by
  unfold thresholdNs
  have : (m : Rat) * c * 1000000 = ((m * c * 1000000 : Int) : Rat) := by push_cast; ring
  rw [this, roundEven_ofInt]; ring

theorem binStart_aligned (n x : Int) (hd : n ∣ dayNs) : binStart n x = x - x % n := by
  unfold binStart
  rw [Int.emod_emod_of_dvd x hd]

theorem binStart_dvd (n x : Int) (hd : n ∣ dayNs) (hx : n ∣ x) : binStart n x = x := by
  rw [binStart_aligned n x hd, Int.emod_eq_zero_of_dvd hx, sub_zero]

theorem yieldEach_ok {α β : Type} {f : α → Except Err β} {err : Option Err} {l : List α} (h : (yieldEach f err l).err = none) :
    err = none ∧ List.Forall₂ (fun x y => f x = .ok y) l (yieldEach f err l).out := by
  induction l with
  | nil => exact ⟨h, .nil⟩
  | cons x xs ih =>
    unfold yieldEach at h ⊢
    cases hf : f x with
    | error e => rw [hf] at h; simp [Gen.raise] at h
    | ok y =>
      rw [hf] at h
      simp only [Gen.cons] at h ⊢
      obtain ⟨h1, h2⟩ := ih h
      exact ⟨h1, .cons hf h2⟩

theorem yieldEach_total {α β : Type} {f : α → Except Err β} {g : α → β} {l : List α} (h : ∀ x ∈ l, f x = .ok (g x)) :
    yieldEach f none l = ⟨l.map g, none⟩ := by
  induction l with
  | nil => rfl
  | cons x xs ih =>
    rw [yieldEach, h x List.mem_cons_self]
    simp only [ih (fun y hy => h y (List.mem_cons_of_mem _ hy)), Gen.cons, List.map_cons]

/-- What a successful `load` with sections has done. -/
theorem groupLoad_ok {ms : List LMeter} {k : GLoadKw} {secs : List TF} (hs : k.sections = some secs) (hne : secs ≠ [])
    (h : (groupLoad ms k).err = none) :
    ∃ period frame columns, groupPeriod ms = .ok period ∧ unionFrames none (ms.map LMeter.frame) = .ok frame ∧
      groupColumns ms k.pq k.ac k.columns = .ok columns ∧
      (splitTimeframes secs (thresholdNs (k.samplePeriod.getD period) (k.chunksize.getD maxMemAllowance))).err = none ∧
      List.Forall₂ (fun p c => loadPiece ms (k.samplePeriod.getD period) columns p = .ok c)
        (splitTimeframes secs (thresholdNs (k.samplePeriod.getD period) (k.chunksize.getD maxMemAllowance))).out
        (groupLoad ms k).out := by
  unfold groupLoad at h ⊢
  cases h1 : groupPeriod ms with
  | error e => rw [h1] at h; simp [Gen.raise] at h
  | ok period =>
    cases h2 : unionFrames none (ms.map LMeter.frame) with
    | error e => rw [h1, h2] at h; simp [Gen.raise] at h
    | ok frame =>
      cases h3 : groupColumns ms k.pq k.ac k.columns with
      | error e => rw [h1, h2, h3] at h; simp [Gen.raise] at h
      | ok columns =>
        simp only [h1, h2, h3, hs, Option.getD_some, if_neg hne] at h ⊢
        obtain ⟨h4, h5⟩ := yieldEach_ok h
        exact ⟨period, frame, columns, rfl, rfl, rfl, h4, h5⟩

/-- What a successful piece looks like. -/
theorem loadPiece_ok {ms : List LMeter} {sp : Rat} {columns : List Col} {p : TF} {c : LChunk}
    (h : loadPiece ms sp columns p = .ok c) :
    ∃ s e firsts, p.start = some s ∧ p.stop = some e ∧ 0 < freqNs sp ∧
      c.index = dateRangeLeft (freqNs sp) (binStart (freqNs sp) s) e ∧ c.columns = columns ∧
      List.Forall₂ (fun m f => m.first sp p = .ok f) ms firsts ∧
      combineChunks c.index columns firsts = .ok (c.cells, c.timeframe) := by
  unfold loadPiece normaliseTimestamp at h
  cases hs : p.start with
  | none => simp [hs] at h
  | some s =>
    simp only [hs] at h
    by_cases hn : freqNs sp ≤ 0
    · simp [hn] at h
    · simp only [if_neg hn] at h
      cases he : p.stop with
      | none => simp [he] at h
      | some e =>
        simp only [he] at h
        cases hm : mapE (fun m : LMeter => m.first sp p) ms with
        | error x => simp [hm] at h
        | ok firsts =>
          simp only [hm] at h
          cases hc : combineChunks (dateRangeLeft (freqNs sp) (binStart (freqNs sp) s) e) columns firsts with
          | error x => simp [hc] at h
          | ok r =>
            obtain ⟨cells, tf⟩ := r
            simp only [hc, Except.ok.injEq] at h
            subst h
            exact ⟨s, e, firsts, rfl, rfl, by omega, rfl, rfl, mapE_ok.1 hm, hc⟩

theorem splitTimeframes_ok {secs : List TF} {thr : Int} (h : (splitTimeframes secs thr).err = none) :
    (splitTimeframes secs thr).out = secs.flatMap (fun s => (s.split thr).out) ∧ ∀ s ∈ secs, (s.split thr).err = none := by
  induction secs with
  | nil => simp [splitTimeframes, Gen.done]
  | cons s secs ih =>
    simp only [splitTimeframes, Gen.append] at h ⊢
    cases he : (s.split thr).err with
    | some e => rw [he] at h; simp at h
    | none =>
      rw [he] at h
      simp only at h ⊢
      obtain ⟨h1, h2⟩ := ih h
      refine ⟨by rw [h1]; rfl, ?_⟩
      intro x hx
      rcases List.mem_cons.1 hx with rfl | hx
      · exact he
      · exact h2 x hx

theorem forall2_append_split {α β : Type} {R : α → β → Prop} {a b : List α} {l : List β} (h : List.Forall₂ R (a ++ b) l) :
    ∃ x y, l = x ++ y ∧ List.Forall₂ R a x ∧ List.Forall₂ R b y := by
  induction a generalizing l with
  | nil => exact ⟨[], l, rfl, .nil, h⟩
  | cons p a ih =>
    cases h with
    | cons h1 h2 =>
      obtain ⟨x, y, rfl, hx, hy⟩ := ih h2
      exact ⟨_ :: x, y, rfl, .cons h1 hx, hy⟩

theorem forall2_flatMap_split {α β γ : Type} {R : β → γ → Prop} (f : α → List β) {l : List α} {out : List γ}
    (h : List.Forall₂ R (l.flatMap f) out) : ∃ parts, out = parts.flatten ∧ List.Forall₂ (fun a p => List.Forall₂ R (f a) p) l parts := by
  induction l generalizing out with
  | nil => cases h; exact ⟨[], rfl, .nil⟩
  | cons a l ih =>
    rw [List.flatMap_cons] at h
    obtain ⟨x, y, rfl, hx, hy⟩ := forall2_append_split h
    obtain ⟨parts, rfl, hp⟩ := ih hy
    exact ⟨x :: parts, rfl, .cons hx hp⟩

theorem forall2_mem_right {α β : Type} {R : α → β → Prop} {l : List α} {r : List β} (h : List.Forall₂ R l r) {b : β}
    (hb : b ∈ r) : ∃ a ∈ l, R a b := by
  induction h with
  | nil => simp at hb
  | cons h1 _ ih =>
    rcases List.mem_cons.1 hb with rfl | hb
    · exact ⟨_, List.mem_cons_self, h1⟩
    · obtain ⟨a, ha, hr⟩ := ih hb
      exact ⟨a, List.mem_cons_of_mem _ ha, hr⟩

theorem forall2_dropLast {α β : Type} {R : α → β → Prop} {l : List α} {r : List β} (h : List.Forall₂ R l r) :
    List.Forall₂ R l.dropLast r.dropLast := by
  induction h with
  | nil => exact .nil
  | cons h1 h2 ih =>
    cases h2 with
    | nil => exact .nil
    | cons h3 h4 => exact .cons h1 ih

theorem forall2_with_mem {α β : Type} {R : α → β → Prop} {l : List α} {r : List β} (h : List.Forall₂ R l r) :
    List.Forall₂ (fun a b => a ∈ l ∧ R a b) l r := by
  rw [List.forall₂_iff_zip] at h ⊢
  exact ⟨h.1, fun {a b} hab => ⟨(List.of_mem_zip hab).1, h.2 hab⟩⟩

/-- The grids of consecutive pieces that start on the grid make up the grid of the whole. -/
theorem tiles_grid {n : Int} {ps : List TF} {s e : Int} (ht : Tiles s e ps) (hs : n ∣ s)
    (hfull : ∀ p ∈ ps.dropLast, ∃ x y, HalfOpen p x y ∧ n ∣ y - x) (index : TF → List Int)
    (hi : ∀ p ∈ ps, ∀ x y, HalfOpen p x y → n ∣ x → IsGrid n x y (index p)) :
    IsGrid n s e (ps.flatMap index) ∧ s ≤ e := by
  induction ht with
  | nil s => exact ⟨⟨.nil, fun t => by simp only [List.flatMap_nil, List.not_mem_nil, false_iff]; omega⟩, le_refl _⟩
  | cons s m e f fs hf hsm ht ih =>
    have h1 := hi f List.mem_cons_self s m hf hs
    rw [List.flatMap_cons]
    by_cases hfs : fs = []
    · subst hfs
      cases ht
      simpa using ⟨h1, hsm.le⟩
    · have hm : n ∣ m := by
        obtain ⟨x, y, hxy, hd⟩ := hfull f (by rw [List.dropLast_cons_of_ne_nil hfs]; exact List.mem_cons_self)
        have e1 : x = s := by have := hxy.2.2.1; rw [hf.2.2.1] at this; simpa using this.symm
        have e2 : y = m := by have := hxy.2.2.2; rw [hf.2.2.2] at this; simpa using this.symm
        subst e1 e2
        have := Int.dvd_add hd hs
        simpa using this
      obtain ⟨h2, h3⟩ := ih hm (fun p hp => hfull p (by rw [List.dropLast_cons_of_ne_nil hfs]; exact List.mem_cons_of_mem _ hp))
        (fun p hp => hi p (List.mem_cons_of_mem _ hp))
      refine ⟨⟨?_, ?_⟩, by omega⟩
      · rw [List.pairwise_append]
        refine ⟨h1.1, h2.1, ?_⟩
        intro a ha b hb
        have := (h1.2 a).1 ha
        have := (h2.2 b).1 hb
        omega
      · intro t
        have key : n ∣ t - s ↔ n ∣ t - m := by
          have hms : n ∣ m - s := Int.dvd_sub hm hs
          constructor
          · intro h; have := Int.dvd_sub h hms; simpa using this
          · intro h; have := Int.dvd_add h hms; simpa using this
        rw [List.mem_append, h1.2, h2.2, key]
        constructor
        · rintro (⟨a, b, c⟩ | ⟨a, b, c⟩)
          · exact ⟨a, by omega, c⟩
          · exact ⟨by omega, b, c⟩
        · rintro ⟨a, b, c⟩
          by_cases htm : t < m
          · exact Or.inl ⟨a, htm, c⟩
          · exact Or.inr ⟨by omega, b, c⟩

theorem tiles_starts {n s e : Int} {ps : List TF} (ht : Tiles s e ps) (hs : n ∣ s)
    (hfull : ∀ p ∈ ps.dropLast, ∃ x y, HalfOpen p x y ∧ n ∣ y - x) : ∀ p ∈ ps, ∀ x y, HalfOpen p x y → n ∣ x := by
  induction ht with
  | nil => intro p hp; simp at hp
  | cons s m' e f fs hf hsm ht ih =>
    intro p hp x y hxy
    rcases List.mem_cons.1 hp with rfl | hp
    · have : x = s := by have := hxy.2.2.1; rw [hf.2.2.1] at this; simpa using this.symm
      rw [this]; exact hs
    · have hfs : fs ≠ [] := List.ne_nil_of_mem hp
      obtain ⟨x', y', hxy', hd⟩ := hfull f (by rw [List.dropLast_cons_of_ne_nil hfs]; exact List.mem_cons_self)
      have e1 : x' = s := by have := hxy'.2.2.1; rw [hf.2.2.1] at this; simpa using this.symm
      have e2 : y' = m' := by have := hxy'.2.2.2; rw [hf.2.2.2] at this; simpa using this.symm
      subst e1 e2
      refine ih ?_ (fun q hq => hfull q (by rw [List.dropLast_cons_of_ne_nil hfs]; exact List.mem_cons_of_mem _ hq)) p hp x y hxy
      have := Int.dvd_add hd hs
      simpa using this

theorem halfOpen_unique {f : TF} {s e s' e' : Int} (h : HalfOpen f s e) (h' : HalfOpen f s' e') : s' = s ∧ e' = e := by
  have h1 := h'.2.2.1
  have h2 := h'.2.2.2
  rw [h.2.2.1] at h1
  rw [h.2.2.2] at h2
  exact ⟨by simpa using h1.symm, by simpa using h2.symm⟩

theorem mem_tiles {s e : Int} {ps : List TF} (ht : Tiles s e ps) (p : TF) (hp : p ∈ ps) : ∃ x y, HalfOpen p x y ∧ x < y ∧ s ≤ x ∧ y ≤ e := by
  have hle : ∀ {s e : Int} {ps : List TF}, Tiles s e ps → s ≤ e := by
    intro s e ps h
    induction h with
    | nil => exact le_refl _
    | cons s m e f fs hf hsm ht ih => omega
  induction ht with
  | nil => simp at hp
  | cons s m e f fs hf hsm ht ih =>
    rcases List.mem_cons.1 hp with rfl | hp
    · exact ⟨s, m, hf, hsm, le_refl _, hle ht⟩
    · obtain ⟨x, y, h1, h2, h3, h4⟩ := ih hp
      exact ⟨x, y, h1, h2, by omega, h4⟩

theorem flatMap_of_forall2 {α β γ : Type} {R : α → β → Prop} {l : List α} {l' : List β} {f : α → List γ} {g : β → List γ}
    (h : List.Forall₂ R l l') (hfg : ∀ a b, R a b → f a = g b) : l.flatMap f = l'.flatMap g := by
  induction h with
  | nil => rfl
  | cons h1 _ ih => rw [List.flatMap_cons, List.flatMap_cons, hfg _ _ h1, ih]

/-! ### The index -/

/-- C85: the pieces of a section that starts on the grid give chunks which, put together, have every time of the grid once. Each
has at most `chunksize` rows; all but the last exactly so many. The sample period is a whole number of seconds that divides a
day. -/
theorem C85_grid_partial (ms : List LMeter) (k : GLoadKw) (m : Nat) (c : Nat) (secs : List TF) (hm : 0 < m) (hc : 0 < c)
    (hday : m ∣ 86400) (hsp : k.samplePeriod = some (m : Rat)) (hcs : k.chunksize = some (c : Int))
    (hsecs : k.sections = some secs) (hne : secs ≠ [])
    (hb : ∀ f ∈ secs, ∃ s e, HalfOpen f s e ∧ s < e ∧ (m * 1000000000 : Int) ∣ s)
    (hok : (groupLoad ms k).err = none) :
    ∃ parts : List (List LChunk), (groupLoad ms k).out = parts.flatten ∧
      List.Forall₂ (fun f part => ∀ s e, HalfOpen f s e →
        IsGrid (m * 1000000000) s e (part.flatMap LChunk.index) ∧
        (∀ ch ∈ part, ch.index ≠ [] ∧ ch.index.length ≤ c) ∧ ∀ ch ∈ part.dropLast, ch.index.length = c) secs parts := by
  obtain ⟨period, frame, columns, -, -, -, h4, h5⟩ := groupLoad_ok hsecs hne hok
  simp only [hsp, hcs, Option.getD_some, thresholdNs_nat] at h4 h5
  generalize hN : (m * 1000000000 : Int) = n at *
  have hn : 0 < n := by omega
  have hnday : n ∣ dayNs := by
    have h1 : (m : Int) ∣ 86400 := by exact_mod_cast hday
    rw [← hN]; exact Int.mul_dvd_mul_right _ h1
  obtain ⟨h6, h7⟩ := splitTimeframes_ok h4
  rw [h6] at h5
  obtain ⟨parts, h8, h9⟩ := forall2_flatMap_split _ h5
  refine ⟨parts, h8, ?_⟩
  have hthr : 0 < (c : Int) * n := Int.mul_pos (by exact_mod_cast hc) hn
  have hF : ∀ f part, f ∈ secs → List.Forall₂ (fun p ch => loadPiece ms (m : Rat) columns p = .ok ch)
      (f.split (c * n)).out part → ∀ s e, HalfOpen f s e →
        IsGrid n s e (part.flatMap LChunk.index) ∧
        (∀ ch ∈ part, ch.index ≠ [] ∧ ch.index.length ≤ c) ∧ ∀ ch ∈ part.dropLast, ch.index.length = c := by
    intro f part hf hfp s e hse
    obtain ⟨s', e', g1, g2, g3⟩ := hb f hf
    have es : s' = s := by have := g1.2.2.1; rw [hse.2.2.1] at this; simpa using this.symm
    have ee : e' = e := by have := g1.2.2.2; rw [hse.2.2.2] at this; simpa using this.symm
    subst es ee
    obtain ⟨t1, t2, t3, t4⟩ := C05_split_tiles f s' e' (c * n) g1 g2 hthr
    have hpst := tiles_starts t2 g3 (fun p hp => by obtain ⟨x, y, a, b⟩ := t4 p hp; exact ⟨x, y, a, ⟨c, by rw [b]; ring⟩⟩)
    have hrow : ∀ p ch, loadPiece ms (m : Rat) columns p = .ok ch → ∀ x y, HalfOpen p x y → n ∣ x →
        ch.index = dateRangeLeft n x y := by
      intro p ch hp x y hxy hx
      obtain ⟨a, b, firsts, q1, q2, q3, q4, -⟩ := loadPiece_ok hp
      rw [freqNs_nat, hN] at q4
      have e1 : a = x := by rw [hxy.2.2.1] at q1; simpa using q1.symm
      have e2 : b = y := by rw [hxy.2.2.2] at q2; simpa using q2.symm
      rw [q4, e1, e2, binStart_dvd n x hnday hx]
    have hgrid := tiles_grid t2 g3
      (fun p hp => by obtain ⟨x, y, a, b⟩ := t4 p hp; exact ⟨x, y, a, ⟨c, by rw [b]; ring⟩⟩)
      (fun p => dateRangeLeft n (p.start.getD 0) (p.stop.getD 0))
      (fun p _ x y hxy _ => by rw [hxy.2.2.1, hxy.2.2.2]; exact dateRange_grid n x y hn)
    have hfp' := forall2_with_mem hfp
    have hlen : ∀ p ∈ (f.split (c * n)).out, ∀ ch, loadPiece ms (m : Rat) columns p = .ok ch →
        ∃ x y, HalfOpen p x y ∧ x < y ∧ ch.index.length = ((y - x + n - 1) / n).toNat := by
      intro p hp ch hpc
      obtain ⟨x, y, a1, a2, -⟩ := mem_tiles t2 p hp
      refine ⟨x, y, a1, a2, ?_⟩
      rw [hrow p ch hpc x y a1 (hpst p hp x y a1), dateRange_length]
    refine ⟨?_, ?_, ?_⟩
    · rw [← flatMap_of_forall2 hfp' (f := fun p => dateRangeLeft n (p.start.getD 0) (p.stop.getD 0))]
      · exact hgrid.1
      · rintro p ch ⟨hp, hpc⟩
        obtain ⟨x, y, a1, -⟩ := mem_tiles t2 p hp
        rw [hrow p ch hpc x y a1 (hpst p hp x y a1), a1.2.2.1, a1.2.2.2]; rfl
    · intro ch hch
      obtain ⟨p, hp, hpc⟩ := forall2_mem_right hfp hch
      obtain ⟨x, y, a1, a2, a3⟩ := hlen p hp ch hpc
      obtain ⟨x', y', b1, b2⟩ := t3 p hp
      have e1 : x' = x := by have := b1.2.2.1; rw [a1.2.2.1] at this; simpa using this.symm
      have e2 : y' = y := by have := b1.2.2.2; rw [a1.2.2.2] at this; simpa using this.symm
      subst e1 e2
      have h1 : 0 < (y' - x' + n - 1) / n := by
        apply Int.lt_of_add_one_le
        rw [Int.le_ediv_iff_mul_le hn]
        omega
      have h2 : (y' - x' + n - 1) / n < c + 1 := by
        rw [Int.ediv_lt_iff_lt_mul hn]
        have : ((c : Int) + 1) * n = c * n + n := by ring
        omega
      exact ⟨List.ne_nil_of_length_pos (by omega), by omega⟩
    · intro ch hch
      obtain ⟨p, hp, hpc⟩ := forall2_mem_right (forall2_dropLast hfp) hch
      obtain ⟨x, y, a1, a2, a3⟩ := hlen p (List.dropLast_subset _ hp) ch hpc
      obtain ⟨x', y', b1, b2⟩ := t4 p hp
      have e1 : x' = x := by have := b1.2.2.1; rw [a1.2.2.1] at this; simpa using this.symm
      have e2 : y' = y := by have := b1.2.2.2; rw [a1.2.2.2] at this; simpa using this.symm
      subst e1 e2
      rw [a3, b2]
      have : (c * n + n - 1) / n = c := by
        rw [Int.ediv_eq_iff_of_pos hn]
        have : ((c : Int) + 1) * n = c * n + n := by ring
        constructor <;> omega
      omega
  have h9' := forall2_with_mem h9
  exact h9'.imp (fun f part hfp => hF f part hfp.1 hfp.2)

/-! ### Columns and values -/

theorem collect_mem {α β : Type} {f : α → Except Err (List β)} {l : List α} {r : List β} (h : collect f l = .ok r) (b : β) :
    b ∈ r ↔ ∃ a ∈ l, ∃ x, f a = .ok x ∧ b ∈ x := by
  induction l generalizing r with
  | nil => cases h; simp
  | cons a l ih =>
    unfold collect at h
    cases hf : f a with
    | error e => simp [hf] at h
    | ok x =>
      cases hc : collect f l with
      | error e => simp [hf, hc] at h
      | ok y =>
        simp only [hf, hc, Except.ok.injEq] at h
        subst h
        rw [List.mem_append, ih hc]
        simp [hf]

/-- The possible outcomes of `load` before the first section is read. -/
theorem groupLoad_cases (ms : List LMeter) (k : GLoadKw) :
    (∃ e, groupLoad ms k = Gen.raise e) ∨
    ∃ columns, groupColumns ms k.pq k.ac k.columns = .ok columns ∧
      (groupLoad ms k = ⟨[⟨[], columns, columns.map (fun _ => []), none⟩], none⟩ ∨
        ∃ sp pieces err, groupLoad ms k = yieldEach (loadPiece ms sp columns) err pieces) := by
  unfold groupLoad
  cases h1 : groupPeriod ms with
  | error e => exact Or.inl ⟨e, rfl⟩
  | ok period =>
    cases h2 : unionFrames none (ms.map LMeter.frame) with
    | error e => exact Or.inl ⟨e, rfl⟩
    | ok frame =>
      cases h3 : groupColumns ms k.pq k.ac k.columns with
      | error e => exact Or.inl ⟨e, rfl⟩
      | ok columns =>
        right
        refine ⟨columns, rfl, ?_⟩
        simp only
        split
        · exact Or.inl rfl
        · exact Or.inr ⟨_, _, _, rfl⟩

theorem yieldEach_mem {α β : Type} {f : α → Except Err β} {err : Option Err} {l : List α} {y : β}
    (h : y ∈ (yieldEach f err l).out) : ∃ x ∈ l, f x = .ok y := by
  induction l with
  | nil => simp [yieldEach] at h
  | cons x xs ih =>
    unfold yieldEach at h
    cases hf : f x with
    | error e => rw [hf] at h; simp [Gen.raise] at h
    | ok z =>
      rw [hf] at h
      simp only [Gen.cons, List.mem_cons] at h
      rcases h with rfl | h
      · exact ⟨x, List.mem_cons_self, hf⟩
      · obtain ⟨a, ha, hb⟩ := ih h
        exact ⟨a, List.mem_cons_of_mem _ ha, hb⟩

/-- C85: the columns of every chunk are, without repetition, those that some member has for the request. -/
theorem C85_columns (ms : List LMeter) (k : GLoadKw) (ch : LChunk) (h : ch ∈ (groupLoad ms k).out) :
    ch.columns.Nodup ∧
    ∀ col, col ∈ ch.columns ↔ ∃ m ∈ ms, ∃ cols, convertToCols m.measurements k.pq k.ac k.columns = .ok cols ∧ col ∈ cols := by
  have key : ∀ columns, groupColumns ms k.pq k.ac k.columns = .ok columns → columns.Nodup ∧
      ∀ col, col ∈ columns ↔ ∃ m ∈ ms, ∃ cols, convertToCols m.measurements k.pq k.ac k.columns = .ok cols ∧ col ∈ cols := by
    intro columns hc
    unfold groupColumns at hc
    cases hx : collect (fun m : LMeter => convertToCols m.measurements k.pq k.ac k.columns) ms with
    | error e => rw [hx] at hc; simp [Except.map] at hc
    | ok r =>
      rw [hx] at hc
      simp only [Except.map, Except.ok.injEq] at hc
      subst hc
      exact ⟨List.nodup_dedup _, fun col => by rw [List.mem_dedup, collect_mem hx]⟩
  rcases groupLoad_cases ms k with ⟨e, he⟩ | ⟨columns, hc, he | ⟨sp, pieces, err, he⟩⟩
  · rw [he] at h; simp [Gen.raise] at h
  · rw [he] at h
    simp only [List.mem_singleton] at h
    subst h
    exact key columns hc
  · rw [he] at h
    obtain ⟨p, _, hp⟩ := yieldEach_mem h
    obtain ⟨_, _, _, _, _, _, _, h7, _⟩ := loadPiece_ok hp
    rw [h7]
    exact key columns hc

/-- C85: every chunk belongs to a piece of a section, in which every time is a time of the section. Its index is regular: it starts at
the bin of the start of the piece and ends before the end of the piece. Its readings are sums (or means) of the readings
that the members' first chunks for this piece have at the times of the index. -/
theorem C85_values (ms : List LMeter) (k : GLoadKw) (sp : Rat) (c : Int) (secs : List TF) (hsp : k.samplePeriod = some sp)
    (hcs : k.chunksize = some c) (hsecs : k.sections = some secs) (hne : secs ≠ []) (hthr : 0 < thresholdNs sp c)
    (hb : ∀ f ∈ secs, ∃ s e, HalfOpen f s e ∧ s < e) (hok : (groupLoad ms k).err = none) (ch : LChunk)
    (hch : ch ∈ (groupLoad ms k).out) :
    ∃ (p : TF) (s e : Int) (firsts : List (Option GChunk)), HalfOpen p s e ∧ s < e ∧
      (∃ f ∈ secs, ∀ t, Mem t p → Mem t f) ∧
      IsGrid (freqNs sp) (binStart (freqNs sp) s) e ch.index ∧
      List.Forall₂ (fun m f => m.first sp p = .ok f) ms firsts ∧
      ((∀ x, some x ∈ firsts → WFChunk x) →
        ch.cells = ch.columns.map (fun col => ch.index.map (fun t =>
          if col.1 ∈ ["voltage", "pf", "frequency", "power factor", "phase_angle"] then
            meanOver (rowsAt firsts col.1 t) (groupReadings firsts col t)
          else sumOf (groupReadings firsts col t)))) := by
  obtain ⟨period, frame, columns, -, -, -, h4, h5⟩ := groupLoad_ok hsecs hne hok
  simp only [hsp, hcs, Option.getD_some] at h4 h5
  obtain ⟨h6, h7⟩ := splitTimeframes_ok h4
  rw [h6] at h5
  obtain ⟨p, hp, hpc⟩ := forall2_mem_right h5 hch
  obtain ⟨f, hf, hpf⟩ := List.mem_flatMap.1 hp
  obtain ⟨s, e, g1, g2⟩ := hb f hf
  obtain ⟨t1, t2, t3, t4⟩ := C05_split_tiles f s e _ g1 g2 hthr
  obtain ⟨x, y, a1, a2, a3, a4⟩ := mem_tiles t2 p hpf
  obtain ⟨a, b, firsts, q1, q2, q3, q4, q5, q6, q7⟩ := loadPiece_ok hpc
  have e1 : a = x := by rw [a1.2.2.1] at q1; simpa using q1.symm
  have e2 : b = y := by rw [a1.2.2.2] at q2; simpa using q2.symm
  subst e1 e2
  refine ⟨p, a, b, firsts, a1, a2, ⟨f, hf, ?_⟩, by rw [q4]; exact dateRange_grid _ _ _ q3, q6, ?_⟩
  · intro t ht
    obtain ⟨-, m1, m2⟩ := ht
    have := m1 a a1.2.2.1
    have h2 := m2 b a1.2.2.2
    rw [a1.2.1] at h2
    simp only [Bool.false_eq_true, false_and, or_false] at h2
    refine ⟨g1.1, ?_, ?_⟩
    · intro s' hs'; rw [g1.2.2.1] at hs'; cases hs'; omega
    · intro e' he'; rw [g1.2.2.2] at he'; cases he'; left; omega
  · intro hw
    rw [q5]
    exact C51_cells ch.index columns firsts ch.cells ch.timeframe hw q7

/-! ### A group of meters with one column -/

/-- The rows of a table that lie in `[a, b)`. -/
def rowsIn (a b : Int) (table : CorChunk) : CorChunk := table.filter (fun p => decide (a ≤ p.1) && decide (p.1 < b))

theorem columnFirst_eq (m : ColumnMeter) (sp : Rat) (p : TF) (a b : Int) (hp : HalfOpen p a b) :
    m.first sp p = (loadAt m.device sp (rowsIn a b m.table)).map
      (fun r => some ⟨[m.col], r.1.map (fun x => (x.1, [x.2])), some p⟩) := by
  unfold ColumnMeter.first rowsIn loadAt
  obtain ⟨h1, h2, h3, h4⟩ := hp
  simp only [h1, h2, h3, h4, Option.all_some, Bool.not_false, Bool.true_and, Bool.false_and, Bool.or_false]
  cases loadColumn false m.device ⟨some sp, none, ⟨none, none, none⟩⟩
    (List.filter (fun p => decide (a ≤ p.1) && decide (p.1 < b)) m.table) with
  | error e => rfl
  | ok r => obtain ⟨out, kw⟩ := r; rfl

/-- C85: what a meter with one column contributes to a piece `[a, b)` of a section. It has no reading in a bin that no row of the piece
reaches; otherwise the mean of the readings in the bin; in an empty bin the last such mean before it in the piece, for at
most ⌈max_sample_period / sample_period⌉ bins. -/
theorem C85_member (m : ColumnMeter) (sp : Nat) (hsp : 0 < sp) (hM : 0 < m.device.maxSamplePeriod) (p : TF) (a b : Int)
    (hp : HalfOpen p a b) (hd : (m.table.map Prod.fst).Nodup) (hne : rowsIn a b m.table ≠ []) :
    ∃ ch, m.first sp p = .ok (some ch) ∧ WFChunk ch ∧ ch.cols = [m.col] ∧ ch.timeframe = some p ∧
      RegularIndex (sp * 1000000000) (rowsIn a b m.table) (ch.rows.map Prod.fst) ∧
      ∀ t v, available ch m.col t = [v] ↔ t ∈ ch.rows.map Prod.fst ∧ ∃ s ∈ ch.rows.map Prod.fst, s ≤ t ∧
        IsAgg .mean (binValues (rowsIn a b m.table) s (s + sp * 1000000000)) v ∧
        NoReading (rowsIn a b m.table) (s + sp * 1000000000) (t + sp * 1000000000) ∧
        t - s ≤ (⌈m.device.maxSamplePeriod / sp⌉.toNat : Int) * (sp * 1000000000) := by
  rw [columnFirst_eq m sp p a b hp]
  have hsp' : (0 : Rat) < sp := by exact_mod_cast hsp
  rw [C76_default m.device sp hsp' hM, roundEven_nat]
  have hd' : ((rowsIn a b m.table).map Prod.fst).Nodup := hd.sublist (List.filter_sublist.map _)
  generalize rowsIn a b m.table = rows at *
  have hL0 : 0 < ⌈m.device.maxSamplePeriod / (sp : Rat)⌉ := Int.ceil_pos.2 (by positivity)
  generalize hN : ((sp : Int) * 1000000000) = n
  have hn : 0 < n := by omega
  generalize hL : ⌈m.device.maxSamplePeriod / (sp : Rat)⌉.toNat = L
  have hL1 : (some L : Option Nat) ≠ some 0 := by simp only [ne_eq, Option.some.injEq]; omega
  obtain ⟨out, h1, h2⟩ := C76_grid n hn .mean .ffill (some L) hL1 rows hne hd'
  rw [h1]
  have hf := C76_filled n hn .mean (some L) rows out hne hd' h1
  have hnd : (out.map Prod.fst).Nodup := by
    obtain ⟨⟨start, q, hq, -⟩⟩ := h2
    rw [hq]
    refine (List.nodup_range).map ?_
    intro i j hij
    have : (i : Int) * n = j * n := by simpa using hij
    exact_mod_cast mul_right_cancel₀ (ne_of_gt hn) this
  have htimes : (out.map (fun x : Int × Option Rat => (x.1, [x.2]))).map Prod.fst = out.map Prod.fst := by simp [Function.comp_def]
  refine ⟨⟨[m.col], out.map (fun x => (x.1, [x.2])), some p⟩, rfl, ⟨by rw [htimes]; exact hnd, by simp, ?_⟩, rfl, rfl, ?_, ?_⟩
  · intro r hr
    obtain ⟨x, _, rfl⟩ := List.mem_map.1 hr
    rfl
  · simp only [htimes]; exact h2
  · intro t v
    simp only [htimes]
    have hav : available ⟨[m.col], out.map (fun x => (x.1, [x.2])), some p⟩ m.col t =
        (out.filter (fun x => decide (x.1 = t))).filterMap Prod.snd := by
      unfold available
      simp only [List.filter_map, List.flatMap_map, Function.comp_def]
      generalize out.filter (fun x => decide (x.1 = t)) = l
      induction l with
      | nil => rfl
      | cons x l ih =>
        rw [List.flatMap_cons, ih]
        cases hx : x.2 <;> simp [hx]
    have hmem : available ⟨[m.col], out.map (fun x => (x.1, [x.2])), some p⟩ m.col t = [v] ↔ (t, some v) ∈ out := by
      rw [hav]
      clear hf hav h2 htimes h1
      induction out with
      | nil => simp
      | cons x out ih =>
        obtain ⟨u, y⟩ := x
        simp only [List.map_cons, List.nodup_cons] at hnd
        by_cases hu : u = t
        · subst hu
          have hnil : out.filter (fun x => decide (x.1 = u)) = [] := by
            rw [List.filter_eq_nil_iff]
            intro z hz hzu
            exact hnd.1 (List.mem_map.2 ⟨z, hz, by simpa using hzu⟩)
          have hno : (u, some v) ∉ out := fun hz => hnd.1 (List.mem_map.2 ⟨_, hz, rfl⟩)
          cases y with
          | none => simp [hnil, hno]
          | some y => simp only [List.filter_cons, decide_true, if_true, hnil, List.filterMap_cons, List.filterMap_nil, List.cons.injEq,
              and_true, List.mem_cons, hno, or_false, Prod.mk.injEq, true_and, Option.some.injEq]; exact eq_comm
        · rw [List.filter_cons_of_neg (by simpa using hu), ih hnd.2]
          simp [Ne.symm hu]
    rw [hmem, hf t v]
    simp

/-- Specification: in `[s, e)` the table has a row at every time of the grid and no other; `v` gives the readings. -/
def CompleteOn (n s e : Int) (table : CorChunk) (v : Int → Rat) : Prop :=
  ∃ l, IsGrid n s e l ∧ rowsIn s e table = l.map (fun t => (t, some (v t)))

/-- A table as a store has it: at least two rows, in the order of time. -/
def StoredTable (table : CorChunk) : Prop := (table.map Prod.fst).Pairwise (· < ·) ∧ 2 ≤ table.length

theorem complete_sub {n s e a b : Int} {table : CorChunk} {v : Int → Rat} (hn : 0 < n) (h : CompleteOn n s e table v)
    (hsa : s ≤ a) (hbe : b ≤ e) (hd : n ∣ a - s) :
    rowsIn a b table = (dateRangeLeft n a b).map (fun t => (t, some (v t))) := by
  obtain ⟨l, hl, hr⟩ := h
  have h1 : rowsIn a b table = (rowsIn s e table).filter (fun p => decide (a ≤ p.1) && decide (p.1 < b)) := by
    unfold rowsIn
    rw [List.filter_filter]
    apply List.filter_congr
    intro x _
    by_cases h1 : a ≤ x.1 <;> by_cases h2 : x.1 < b <;> (simp [h1, h2]; try omega)
  rw [h1, hr, List.filter_map]
  congr 1
  apply grid_unique _ (dateRange_grid n a b hn)
  refine ⟨hl.1.sublist List.filter_sublist, ?_⟩
  intro t
  rw [List.mem_filter, hl.2]
  simp only [Function.comp_apply, Bool.and_eq_true, decide_eq_true_eq]
  have key : n ∣ t - s ↔ n ∣ t - a := by
    constructor
    · intro h; have := Int.dvd_sub h hd; simpa using this
    · intro h; have := Int.dvd_add h hd; simpa using this
  rw [key]
  constructor
  · rintro ⟨⟨_, _, h⟩, h2, h3⟩; exact ⟨h2, h3, h⟩
  · rintro ⟨h2, h3, h⟩; exact ⟨⟨by omega, by omega, h⟩, h2, h3⟩

theorem stored_frame (m : ColumnMeter) (h : StoredTable m.table) :
    ∃ f a b, m.frame = .ok f ∧ Bounded f a b ∧ HalfOpen f a b ∧ m.table.head?.map Prod.fst = some a ∧
      m.table.getLast?.map Prod.fst = some b := by
  obtain ⟨h1, h2⟩ := h
  unfold ColumnMeter.frame
  generalize m.table = tb at *
  match tb, h1, h2 with
  | x :: y :: rest, h1, _ =>
    obtain ⟨z, hz⟩ : ∃ z, (x :: y :: rest).getLast? = some z := by
      rw [List.getLast?_eq_some_getLast (by simp)]; exact ⟨_, rfl⟩
    have hz' : (y :: rest).getLast? = some z := by simpa using hz
    have hlt : x.1 < z.1 := by
      simp only [List.map_cons, List.pairwise_cons] at h1
      have := List.mem_of_getLast? hz'
      exact h1.1 z.1 (by rw [← List.map_cons]; exact List.mem_map_of_mem this)
    refine ⟨TF.mk' (some x.1) (some z.1), x.1, z.1, ?_, ⟨rfl, rfl, rfl, hlt⟩, ⟨rfl, rfl, rfl, rfl⟩, rfl, by rw [hz]; rfl⟩
    simp only [List.head?_cons, hz]
    apply ctor_ok
    intro a b ha hb
    cases ha; cases hb
    exact hlt

/-- The frame of a group of stored meters is the hull of theirs. -/
theorem unionFrames_stored (ms : List ColumnMeter) (h : ∀ m ∈ ms, StoredTable m.table) (acc : TF) (s e : Int)
    (hacc : Bounded acc s e) (hi : acc.includeEnd = false) :
    ∃ f s' e', unionFrames (some acc) (ms.map ColumnMeter.frame) = .ok (some f) ∧ Bounded f s' e' ∧ HalfOpen f s' e' ∧ s' ≤ s ∧ e ≤ e' ∧
      (∀ m ∈ ms, ∀ r ∈ m.table, s' ≤ r.1 ∧ r.1 ≤ e') ∧ (e' = e ∨ ∃ m ∈ ms, ∃ r ∈ m.table, r.1 = e') := by
  induction ms generalizing acc s e with
  | nil => exact ⟨acc, s, e, rfl, hacc, ⟨hacc.1, hi, hacc.2.1, hacc.2.2.1⟩, le_refl _, le_refl _, by simp, Or.inl rfl⟩
  | cons m ms ih =>
    obtain ⟨f, a, b, h1, h2, h3, h4, h5⟩ := stored_frame m (h m List.mem_cons_self)
    obtain ⟨u, hu, hub⟩ := union_bounded acc f s e a b hacc h2
    have hui : u.includeEnd = false := by
      have := hu
      unfold TF.union at this
      rw [hacc.2.1, h2.2.1, hacc.2.2.1, h2.2.2.1] at this
      simp only at this
      rw [ctor_ok (by
        intro x y hx hy
        cases hx; cases hy
        have := hacc.2.2.2
        have := h2.2.2.2
        omega)] at this
      cases this
      rfl
    obtain ⟨g, s', e', g1, g2, g3, g4, g5, g6, g7⟩ := ih (fun x hx => h x (List.mem_cons_of_mem _ hx)) u _ _ hub hui
    refine ⟨g, s', e', ?_, g2, g3, by omega, by omega, ?_, ?_⟩
    · rw [List.map_cons, h1, unionFrames, timeframeStep]
      simp only [h2.1, Bool.false_eq_true, if_false, hu]
      exact g1
    · intro x hx r hr
      rcases List.mem_cons.1 hx with rfl | hx
      · have hmono := (h x List.mem_cons_self).1
        have hge : a ≤ r.1 := by
          cases htb : x.table with
          | nil => rw [htb] at hr; simp at hr
          | cons y tl =>
            rw [htb] at hr hmono h4
            simp only [List.head?_cons, Option.map_some, Option.some.injEq] at h4
            simp only [List.map_cons, List.pairwise_cons] at hmono
            rcases List.mem_cons.1 hr with rfl | hr
            · omega
            · have := hmono.1 r.1 (List.mem_map_of_mem hr); omega
        have hle : r.1 ≤ b := by
          obtain ⟨i, hi, hir⟩ := List.getElem_of_mem hr
          have hlast : ∃ z, x.table.getLast? = some z ∧ z.1 = b := by
            cases hz : x.table.getLast? with
            | none => rw [hz] at h5; simp at h5
            | some z => rw [hz] at h5; exact ⟨z, rfl, by simpa using h5⟩
          obtain ⟨z, hz, hzb⟩ := hlast
          rw [List.getLast?_eq_getElem?] at hz
          obtain ⟨hj, hjz⟩ := List.getElem?_eq_some_iff.1 hz
          rcases Nat.lt_or_ge i (x.table.length - 1) with hlt | hge'
          · rw [List.pairwise_map] at hmono
            have := List.pairwise_iff_getElem.1 hmono i (x.table.length - 1) hi hj hlt
            rw [hir, hjz] at this
            omega
          · have : i = x.table.length - 1 := by omega
            subst this
            rw [hir] at hjz
            rw [hjz]
            omega
        exact ⟨le_trans (le_trans g4 (min_le_right _ _)) hge, le_trans hle (le_trans (le_max_right _ _) g5)⟩
      · exact g6 x hx r hr
    · rcases g7 with g7 | ⟨x, hx, r, hr, hre⟩
      · rcases max_choice e b with hm | hm
        · left; omega
        · right
          cases hz : m.table.getLast? with
          | none => rw [hz] at h5; simp at h5
          | some z =>
            rw [hz] at h5
            refine ⟨m, List.mem_cons_self, z, List.mem_of_getLast? hz, ?_⟩
            simp only [Option.map_some, Option.some.injEq] at h5
            omega
      · exact Or.inr ⟨x, List.mem_cons_of_mem _ hx, r, hr, hre⟩

theorem groupFrame_stored (ms : List ColumnMeter) (hne : ms ≠ []) (h : ∀ m ∈ ms, StoredTable m.table) :
    ∃ f s e, unionFrames none ((ms.map ColumnMeter.toLMeter).map LMeter.frame) = .ok (some f) ∧ HalfOpen f s e ∧ s < e ∧
      (∀ m ∈ ms, ∀ r ∈ m.table, s ≤ r.1 ∧ r.1 ≤ e) ∧ ∃ m ∈ ms, ∃ r ∈ m.table, r.1 = e := by
  have hmap : (ms.map ColumnMeter.toLMeter).map LMeter.frame = ms.map ColumnMeter.frame := by
    rw [List.map_map]; rfl
  rw [hmap]
  cases ms with
  | nil => exact absurd rfl hne
  | cons m ms =>
    obtain ⟨f, a, b, h1, h2, h3, -, h5⟩ := stored_frame m (h m List.mem_cons_self)
    -- the first step gives the frame of the first meter; adding that frame again changes nothing
    obtain ⟨g, s, e, g1, g2, g3, g4, g5, g6, g7⟩ := unionFrames_stored (m :: ms) h f a b h2 h3.2.1
    have hu : f.union f = .ok f := by
      unfold TF.union
      rw [h2.2.1, h2.2.2.1]
      simp only [min_self, max_self]
      rw [ctor_ok (by intro x y hx hy; cases hx; cases hy; exact h2.2.2.2)]
      unfold ColumnMeter.frame at h1
      cases hh : m.table.head? with
      | none => rw [hh] at h1; simp at h1
      | some x =>
        cases hl : m.table.getLast? with
        | none => rw [hh, hl] at h1; simp at h1
        | some y =>
          rw [hh, hl] at h1
          simp only at h1
          by_cases hxy : x.1 < y.1
          · rw [ctor_ok (by intro x' y' hx hy; cases hx; cases hy; exact hxy)] at h1
            cases h1
            have := h2.2.1
            have := h2.2.2.1
            simp_all [mk', TF.start, TF.stop]
          · rw [ctor_error (by omega)] at h1; simp at h1
    refine ⟨g, s, e, ?_, g3, g2.2.2.2, g6, ?_⟩
    · rw [List.map_cons, h1, unionFrames, timeframeStep] at g1
      simp only [h2.1, Bool.false_eq_true, if_false, hu] at g1
      rw [List.map_cons, h1, unionFrames, timeframeStep]
      exact g1
    · rcases g7 with g7 | g7
      · cases hz : m.table.getLast? with
        | none => rw [hz] at h5; simp at h5
        | some z =>
          rw [hz] at h5
          refine ⟨m, List.mem_cons_self, z, List.mem_of_getLast? hz, ?_⟩
          simp only [Option.map_some, Option.some.injEq] at h5
          omega
      · exact g7

theorem first_complete (m : ColumnMeter) (hM : 0 < m.device.maxSamplePeriod) (sp : Nat) (hsp : 0 < sp) (n : Int)
    (hN : (sp * 1000000000 : Int) = n) (hnday : n ∣ dayNs) (s e : Int) (v : Int → Rat) (hc : CompleteOn n s e m.table v) (p : TF)
    (a b : Int) (hp : HalfOpen p a b) (hsa : s ≤ a) (hbe : b ≤ e) (hs : n ∣ s) (ha : n ∣ a) :
    m.first sp p = .ok (some ⟨[m.col], (dateRangeLeft n a b).map (fun t => (t, [some (v t)])), some p⟩) := by
  have hn : 0 < n := by omega
  rw [columnFirst_eq m sp p a b hp, complete_sub hn hc hsa hbe (Int.dvd_sub ha hs)]
  obtain ⟨kw, hkw⟩ := C76_identity m.device hM sp hsp a ((b - a + n - 1) / n).toNat (fun i => v (a + i * n))
    (by rw [hN, Int.emod_def]; exact Int.dvd_sub ha (Dvd.dvd.mul_right hnday _))
  rw [hN] at hkw
  have e1 : (dateRangeLeft n a b).map (fun t => (t, some (v t))) =
      (List.range ((b - a + n - 1) / n).toNat).map (fun i : Nat => (a + i * n, some (v (a + i * n)))) := by
    rw [dateRangeLeft, List.map_map]; rfl
  rw [e1, hkw]
  simp only [Except.map, Except.ok.injEq, Option.some.injEq, GChunk.mk.injEq, true_and, and_true]
  rw [dateRangeLeft, List.map_map, List.map_map]
  rfl

/-- C85: a group whose meters have readings at every time of the grid: one piece. -/
theorem loadPiece_total (ms : List ColumnMeter) (hne : ms ≠ []) (col : Col)
    (hq : col.1 ∉ ["voltage", "pf", "frequency", "power factor", "phase_angle"]) (hcol : ∀ m ∈ ms, m.col = col)
    (hM : ∀ m ∈ ms, 0 < m.device.maxSamplePeriod) (sp : Nat) (hsp : 0 < sp) (n : Int) (hN : (sp * 1000000000 : Int) = n)
    (hnday : n ∣ dayNs) (s e : Int) (v : ColumnMeter → Int → Rat) (hc : ∀ m ∈ ms, CompleteOn n s e m.table (v m)) (p : TF)
    (a b : Int) (hp : HalfOpen p a b) (hab : a < b) (hsa : s ≤ a) (hbe : b ≤ e) (hs : n ∣ s) (ha : n ∣ a) :
    ∃ tf, loadPiece (ms.map ColumnMeter.toLMeter) sp [col] p = .ok ⟨dateRangeLeft n a b, [col],
      [(dateRangeLeft n a b).map (fun t => some ((ms.map (fun m => v m t)).sum))], tf⟩ := by
  have hn : 0 < n := by omega
  have hfirst : ∀ m ∈ ms, m.first sp p = .ok (some ⟨[col], (dateRangeLeft n a b).map (fun t => (t, [some (v m t)])), some p⟩) := by
    intro m hm
    rw [first_complete m (hM m hm) sp hsp n hN hnday s e (v m) (hc m hm) p a b hp hsa hbe hs ha, hcol m hm]
  have hidx : dateRangeLeft n a b ≠ [] := by
    apply List.ne_nil_of_mem (a := a)
    rw [(dateRange_grid n a b hn).2]
    exact ⟨le_refl _, hab, by simp⟩
  generalize hI : dateRangeLeft n a b = index at *
  have hnd : index.Nodup := by
    rw [← hI]
    exact (dateRange_grid n a b hn).1.imp (fun h => ne_of_lt h)
  let firsts : List (Option GChunk) := ms.map (fun m => some ⟨[col], index.map (fun t => (t, [some (v m t)])), some p⟩)
  have hmapE : mapE (fun m : LMeter => m.first (sp : Rat) p) (ms.map ColumnMeter.toLMeter) = .ok firsts := by
    rw [mapE_ok, List.forall₂_map_left_iff, List.forall₂_map_right_iff, List.forall₂_same]
    exact hfirst
  have hwf : ∀ x, some x ∈ firsts → WFChunk x := by
    intro x hx
    obtain ⟨m, hm, hmx⟩ := List.mem_map.1 hx
    simp only [Option.some.injEq] at hmx
    subst hmx
    refine ⟨by simpa [Function.comp_def] using hnd, by simp, ?_⟩
    intro r hr
    obtain ⟨t, _, rfl⟩ := List.mem_map.1 hr
    rfl
  have hcon : contributing firsts = ms.map (fun m => ⟨[col], index.map (fun t => (t, [some (v m t)])), some p⟩) := by
    unfold contributing
    show (ms.map _).filterMap _ = _
    rw [List.filterMap_map]
    conv_rhs => rw [← List.filterMap_eq_map]
    apply List.filterMap_congr
    intro m _
    simp only [Function.comp_apply]
    rw [Option.filter_some, if_pos]
    simpa [List.isEmpty_iff] using hidx
  obtain ⟨cells, tf, h1, -, -⟩ := C51_succeeds index [col] firsts hwf (by
      rw [hcon]
      intro x hx
      obtain ⟨m, hm, rfl⟩ := List.mem_map.1 hx
      exact ⟨p, a, b, rfl, hp.1, hp.2.2.1, hp.2.2.2, hab⟩) (by
      rw [hcon]
      intro x hx y hy hyq
      obtain ⟨m, hm, rfl⟩ := List.mem_map.1 hx
      simp only [List.mem_singleton] at hy
      subst hy
      exact absurd hyq hq)
  have h2 := C51_cells index [col] firsts cells tf hwf h1
  simp only [List.map_cons, List.map_nil, if_neg hq] at h2
  have h3 : cells = [index.map (fun t => some ((ms.map (fun m => v m t)).sum))] := by
    rw [h2]
    congr 1
    apply List.map_congr_left
    intro t ht
    have hread : groupReadings firsts col t = ms.map (fun m => v m t) := by
      unfold groupReadings
      rw [hcon, List.flatMap_map]
      have : ∀ m : ColumnMeter, available ⟨[col], index.map (fun t => (t, [some (v m t)])), some p⟩ col t = [v m t] := by
        intro m
        unfold available
        simp only
        have hf : (index.map (fun t => (t, [some (v m t)]))).filter (fun r => decide (r.1 = t)) = [(t, [some (v m t)])] := by
          rw [List.filter_map]
          have : index.filter ((fun r : Int × List (Option Rat) => decide (r.1 = t)) ∘ fun t => (t, [some (v m t)])) = [t] := by
            have h5 : index.filter ((fun r : Int × List (Option Rat) => decide (r.1 = t)) ∘ fun t => (t, [some (v m t)])) =
                index.filter (fun u => u == t) := by
              apply List.filter_congr
              intro u _
              simp [Function.comp]
              rfl
            rw [h5]
            rw [List.filter_beq, List.count_eq_one_of_mem hnd ht]
            rfl
          rw [this]
          rfl
        rw [hf]
        simp
      simp only [this]
      exact List.flatMap_pure_eq_map _ _
    unfold sumOf
    rw [hread, if_neg (by simpa using hne)]
  refine ⟨tf, ?_⟩
  have hf : freqNs (sp : Rat) = n := by rw [freqNs_nat, hN]
  generalize (sp : Rat) = q at *
  unfold loadPiece normaliseTimestamp
  rw [hf, hp.2.2.1, hp.2.2.2]
  simp only [if_neg (not_le.2 hn), binStart_dvd n a hnday ha, hmapE, hI, h1, h3]

theorem nsDvdDay {sp : Nat} (hday : sp ∣ 86400) : (sp * 1000000000 : Int) ∣ dayNs := by
  have h1 : (sp : Int) ∣ 86400 := by exact_mod_cast hday
  exact Int.mul_dvd_mul_right _ h1

theorem yieldEach_exists {α β : Type} {f : α → Except Err β} {P : α → β → Prop} {l : List α}
    (h : ∀ x ∈ l, ∃ y, f x = .ok y ∧ P x y) : ∃ out, yieldEach f none l = ⟨out, none⟩ ∧ List.Forall₂ P l out := by
  induction l with
  | nil => exact ⟨[], rfl, .nil⟩
  | cons x xs ih =>
    obtain ⟨y, h1, h2⟩ := h x List.mem_cons_self
    obtain ⟨out, h3, h4⟩ := ih (fun z hz => h z (List.mem_cons_of_mem _ hz))
    exact ⟨y :: out, by rw [yieldEach, h1]; simp only [h3, Gen.cons], .cons h2 h4⟩

theorem groupPeriod_some (ms : List LMeter) (h : ms ≠ []) : ∃ p, groupPeriod ms = .ok p := by
  cases ms with
  | nil => exact absurd rfl h
  | cons m ms => exact ⟨_, rfl⟩

theorem groupColumns_same (ms : List LMeter) (hne : ms ≠ []) (pq ac : Req) (columns : Option (List Col)) (col : Col)
    (h : ∀ m ∈ ms, convertToCols m.measurements pq ac columns = .ok [col]) : groupColumns ms pq ac columns = .ok [col] := by
  unfold groupColumns
  rw [collect_ok _ (fun _ => [col]) ms h]
  simp only [Except.map, Except.ok.injEq]
  cases ms with
  | nil => exact absurd rfl hne
  | cons m ms =>
    clear h hne
    induction ms with
    | nil => simp
    | cons x xs ih =>
      simp only [List.map_cons, List.flatten_cons, List.singleton_append] at ih ⊢
      rw [List.dedup_cons_of_mem (by simp)]
      exact ih

/-- C85: a group of meters that all have a reading at every time of the grid in a section. Whatever the chunk size, the chunks of
`load` put together have the times of the grid, each once, and at each the sum of the readings of the meters. -/
theorem C85_total_partial (ms : List ColumnMeter) (hne : ms ≠ []) (hst : ∀ m ∈ ms, StoredTable m.table) (col : Col)
    (hq : col.1 ∉ ["voltage", "pf", "frequency", "power factor", "phase_angle"]) (hcol : ∀ m ∈ ms, m.col = col)
    (hM : ∀ m ∈ ms, 0 < m.device.maxSamplePeriod) (sp c : Nat) (hsp : 0 < sp) (hc : 0 < c) (hday : sp ∣ 86400) (f : TF) (s e : Int)
    (hf : HalfOpen f s e) (hse : s < e) (hs : (sp * 1000000000 : Int) ∣ s) (v : ColumnMeter → Int → Rat)
    (hv : ∀ m ∈ ms, CompleteOn (sp * 1000000000) s e m.table (v m)) (pq ac : Req) (columns : Option (List Col))
    (hreq : convertToCols [⟨col.1, some col.2, none, none⟩] pq ac columns = .ok [col]) :
    (groupLoad (ms.map ColumnMeter.toLMeter) ⟨some (sp : Rat), some [f], some (c : Int), pq, ac, columns⟩).err = none ∧
    (∀ ch ∈ (groupLoad (ms.map ColumnMeter.toLMeter) ⟨some (sp : Rat), some [f], some (c : Int), pq, ac, columns⟩).out,
      ch.columns = [col] ∧ ch.index ≠ [] ∧ ∃ cells, ch.cells = [cells] ∧ cells.length = ch.index.length) ∧
    ∃ l, IsGrid (sp * 1000000000) s e l ∧
      (groupLoad (ms.map ColumnMeter.toLMeter) ⟨some (sp : Rat), some [f], some (c : Int), pq, ac, columns⟩).out.flatMap (chunkRows 0) =
        l.map (fun t => (t, some ((ms.map (fun m => v m t)).sum))) := by
  have hnday := nsDvdDay hday
  have hthreq : thresholdNs (sp : Rat) (c : Int) = c * (sp * 1000000000) := thresholdNs_nat sp c
  generalize hN : (sp * 1000000000 : Int) = n at *
  have hn : 0 < n := by omega
  have hne' : ms.map ColumnMeter.toLMeter ≠ [] := by simpa using hne
  obtain ⟨period, hper⟩ := groupPeriod_some _ hne'
  obtain ⟨frame, fs, fe, hframe, -⟩ := groupFrame_stored ms hne hst
  have hcols : groupColumns (ms.map ColumnMeter.toLMeter) pq ac columns = .ok [col] := by
    apply groupColumns_same _ hne'
    intro x hx
    obtain ⟨m, hm, rfl⟩ := List.mem_map.1 hx
    simp only [ColumnMeter.toLMeter, hcol m hm]
    exact hreq
  have hthr : 0 < (c : Int) * n := Int.mul_pos (by exact_mod_cast hc) hn
  obtain ⟨t1, t2, t3, t4⟩ := C05_split_tiles f s e (c * n) hf hse hthr
  have t4' : ∀ p ∈ (f.split (c * n)).out.dropLast, ∃ x y, HalfOpen p x y ∧ n ∣ y - x := by
    intro p hp
    obtain ⟨x, y, a, b⟩ := t4 p hp
    exact ⟨x, y, a, ⟨c, by rw [b]; ring⟩⟩
  have hstart := tiles_starts t2 hs t4'
  have hsplit : splitTimeframes [f] (c * n) = ⟨(f.split (c * n)).out, none⟩ := by
    simp [splitTimeframes, Gen.append, t1, Gen.done]
  have hpieces : ∀ p ∈ (f.split (c * n)).out, ∃ ch, loadPiece (ms.map ColumnMeter.toLMeter) (sp : Rat) [col] p = .ok ch ∧
      (ch.columns = [col] ∧ ch.index ≠ [] ∧ ch.index = dateRangeLeft n (p.start.getD 0) (p.stop.getD 0) ∧
        ch.cells = [ch.index.map (fun t => some ((ms.map (fun m => v m t)).sum))]) := by
    intro p hp
    obtain ⟨x, y, a1, a2, a3, a4⟩ := mem_tiles t2 p hp
    obtain ⟨tf, htf⟩ := loadPiece_total ms hne col hq hcol hM sp hsp n hN hnday s e v hv p x y a1 a2 a3 a4 hs (hstart p hp x y a1)
    refine ⟨_, htf, rfl, ?_, ?_, rfl⟩
    · apply List.ne_nil_of_mem (a := x)
      show x ∈ dateRangeLeft n x y
      rw [(dateRange_grid n x y hn).2]
      exact ⟨le_refl _, a2, by simp⟩
    · simp only [a1.2.2.1, a1.2.2.2, Option.getD_some]
  obtain ⟨out, h1, h2⟩ := yieldEach_exists hpieces
  have hload : groupLoad (ms.map ColumnMeter.toLMeter) ⟨some (sp : Rat), some [f], some (c : Int), pq, ac, columns⟩ = ⟨out, none⟩ := by
    unfold groupLoad
    simp only [hper, hframe, hcols, Option.getD_some, hthreq, hsplit, h1]
    simp
  rw [hload]
  refine ⟨rfl, ?_, (f.split (c * n)).out.flatMap (fun p => dateRangeLeft n (p.start.getD 0) (p.stop.getD 0)), ?_, ?_⟩
  · intro ch hch
    obtain ⟨p, hp, q1, q2, q3, q4⟩ := forall2_mem_right h2 hch
    exact ⟨q1, q2, _, q4, by simp⟩
  · exact (tiles_grid t2 hs t4' _
      (fun p _ x y hxy _ => by rw [hxy.2.2.1, hxy.2.2.2]; exact dateRange_grid n x y hn)).1
  · rw [List.map_flatMap]
    symm
    apply flatMap_of_forall2 h2
    rintro p ch ⟨q1, q2, q3, q4⟩
    rw [← q3]
    simp only [chunkRows, q4, List.getD_cons_zero]
    generalize ch.index = l
    induction l with
    | nil => rfl
    | cons t l ih => simp only [List.map_cons, List.zip_cons_cons, ih]

/-- C85: so the result does not depend on the chunk size. -/
theorem C85_chunksize_partial (ms : List ColumnMeter) (hne : ms ≠ []) (hst : ∀ m ∈ ms, StoredTable m.table) (col : Col)
    (hq : col.1 ∉ ["voltage", "pf", "frequency", "power factor", "phase_angle"]) (hcol : ∀ m ∈ ms, m.col = col)
    (hM : ∀ m ∈ ms, 0 < m.device.maxSamplePeriod) (sp c c' : Nat) (hsp : 0 < sp) (hc : 0 < c) (hc' : 0 < c') (hday : sp ∣ 86400)
    (f : TF) (s e : Int) (hf : HalfOpen f s e) (hse : s < e) (hs : (sp * 1000000000 : Int) ∣ s) (v : ColumnMeter → Int → Rat)
    (hv : ∀ m ∈ ms, CompleteOn (sp * 1000000000) s e m.table (v m)) (pq ac : Req) (columns : Option (List Col))
    (hreq : convertToCols [⟨col.1, some col.2, none, none⟩] pq ac columns = .ok [col]) :
    (groupLoad (ms.map ColumnMeter.toLMeter) ⟨some (sp : Rat), some [f], some (c : Int), pq, ac, columns⟩).out.flatMap (chunkRows 0) =
    (groupLoad (ms.map ColumnMeter.toLMeter) ⟨some (sp : Rat), some [f], some (c' : Int), pq, ac, columns⟩).out.flatMap (chunkRows 0) := by
  obtain ⟨-, -, l, h1, h2⟩ := C85_total_partial ms hne hst col hq hcol hM sp c hsp hc hday f s e hf hse hs v hv pq ac columns hreq
  obtain ⟨-, -, l', h3, h4⟩ := C85_total_partial ms hne hst col hq hcol hM sp c' hsp hc' hday f s e hf hse hs v hv pq ac columns hreq
  rw [h2, h4, grid_unique h1 h3]

/-! ### Series -/

theorem strictSum_spec (l : List (Option Rat)) :
    (strictSum l = none ↔ none ∈ l) ∧ ∀ x, strictSum l = some x → x = (l.filterMap id).sum := by
  induction l with
  | nil => simp [strictSum]
  | cons a l ih =>
    cases a with
    | none => simp [strictSum]
    | some a =>
      simp only [strictSum, Option.map_eq_none_iff, ih.1, List.mem_cons, reduceCtorEq, false_or, true_and]
      intro x hx
      cases hs : strictSum l with
      | none => rw [hs] at hx; simp at hx
      | some y =>
        rw [hs] at hx
        simp only [Option.map_some, Option.some.injEq] at hx
        rw [← hx, ih.2 y hs]
        simp

/-- C85: `load_series` adds the columns of the physical quantity: at every time of the chunk one value, missing exactly when one of
these columns has no reading, otherwise the sum. The name lists the AC types of these columns. -/
theorem C85_series (q : String) (ch : LChunk) (hne : ch.index ≠ []) (hlen : ch.cells.length = ch.columns.length)
    (hcol : ∃ col ∈ ch.columns, col.1 = q) :
    ∃ sr, seriesOfChunk q ch = .ok sr ∧
      sr.acTypes = (ch.columns.filter (fun col => col.1 = q)).map Prod.snd ∧
      sr.rows.map Prod.fst = ch.index ∧
      ∀ (i : Nat) (t : Int) (x : Option Rat), sr.rows[i]? = some (t, x) →
        (x = none ↔ ∃ (j : Nat) (col : Col) (cells : List (Option Rat)), ch.columns[j]? = some col ∧ col.1 = q ∧
          ch.cells[j]? = some cells ∧ cells.getD i none = none) ∧
        ∀ y, x = some y → y = (((ch.columns.zip ch.cells).filter (fun p => decide (p.1.1 = q))).filterMap
          (fun p => p.2.getD i none)).sum := by
  have hcols : ch.columns ≠ [] := by
    obtain ⟨col, hc, -⟩ := hcol
    exact List.ne_nil_of_mem hc
  have hbeq : (fun p : Col × List (Option Rat) => p.1.1 == q) = (fun p => decide (p.1.1 = q)) := by
    funext p; by_cases h : p.1.1 = q <;> simp [h]
  have hfst : ∀ (cols : List Col) (cells : List (List (Option Rat))), cells.length = cols.length →
      ((cols.zip cells).filter (fun p => decide (p.1.1 = q))).map (fun p => p.1.2) =
        (cols.filter (fun col => decide (col.1 = q))).map Prod.snd := by
    intro cols
    induction cols with
    | nil => intro cells _; simp
    | cons a cols ih =>
      intro cells hl
      cases cells with
      | nil => simp at hl
      | cons b cells =>
        have := ih cells (by simpa using hl)
        by_cases h : a.1 = q <;> simp [h, this]
  have hpick : (ch.columns.zip ch.cells).filter (fun p => decide (p.1.1 = q)) ≠ [] := by
    intro hnil
    have := hfst ch.columns ch.cells hlen
    rw [hnil] at this
    obtain ⟨col, hc, hcq⟩ := hcol
    have hm : col ∈ ch.columns.filter (fun col => decide (col.1 = q)) := List.mem_filter.2 ⟨hc, by simpa using hcq⟩
    have hempty : ch.columns.filter (fun col => decide (col.1 = q)) = [] := by simpa using this.symm
    rw [hempty] at hm
    simp at hm
  unfold seriesOfChunk
  rw [if_neg (by simp [hne, hcols])]
  simp only [hbeq, if_neg hpick]
  refine ⟨_, rfl, hfst _ _ hlen, ?_, ?_⟩
  · simp only [List.map_map, Function.comp_def]
    apply List.ext_getElem (by simp)
    intro i h1 h2
    simp [List.getD_eq_getElem?_getD, List.getElem?_eq_getElem h2]
  · intro i t x hx
    rw [List.getElem?_map] at hx
    cases hr : (List.range ch.index.length)[i]? with
    | none => rw [hr] at hx; simp at hx
    | some i' =>
      have hii : i' = i := by
        have := List.getElem?_eq_some_iff.1 hr
        obtain ⟨_, h⟩ := this
        simpa using h.symm
      rw [hr, hii] at hx
      simp only [Option.map_some, Option.some.injEq, Prod.mk.injEq] at hx
      obtain ⟨-, hx⟩ := hx
      obtain ⟨s1, s2⟩ := strictSum_spec (((ch.columns.zip ch.cells).filter (fun p => decide (p.1.1 = q))).map (fun p => p.2.getD i none))
      rw [hx] at s1 s2
      refine ⟨?_, ?_⟩
      · rw [s1]
        simp only [List.mem_map, List.mem_filter, decide_eq_true_eq]
        constructor
        · rintro ⟨p, ⟨hp, hpq⟩, hpn⟩
          obtain ⟨j, hj⟩ := List.getElem?_of_mem hp
          rw [List.getElem?_zip_eq_some] at hj
          exact ⟨j, p.1, p.2, hj.1, hpq, hj.2, hpn⟩
        · rintro ⟨j, col, cells, h1, h2, h3, h4⟩
          exact ⟨(col, cells), ⟨List.mem_of_getElem? (i := j) (List.getElem?_zip_eq_some.2 ⟨h1, h3⟩), h2⟩, h4⟩
      · intro y hy
        rw [s2 y hy, List.filterMap_map]
        rfl

/-- C85: `power_series` of a group of meters that all measure the same type of power and have a reading at every time of the
grid: the total power of the meters at every time of the grid. -/
theorem C85_power_partial (ms : List ColumnMeter) (hne : ms ≠ []) (hst : ∀ m ∈ ms, StoredTable m.table) (ty : String)
    (hty : ty ∈ ["active", "reactive", "apparent"]) (hcol : ∀ m ∈ ms, m.col = ("power", ty))
    (hM : ∀ m ∈ ms, 0 < m.device.maxSamplePeriod) (sp c : Nat) (hsp : 0 < sp) (hc : 0 < c) (hday : sp ∣ 86400) (f : TF) (s e : Int)
    (hf : HalfOpen f s e) (hse : s < e) (hs : (sp * 1000000000 : Int) ∣ s) (v : ColumnMeter → Int → Rat)
    (hv : ∀ m ∈ ms, CompleteOn (sp * 1000000000) s e m.table (v m)) :
    let g := groupPowerSeries (ms.map ColumnMeter.toLMeter) ⟨some (sp : Rat), some [f], some (c : Int), .none, .none, none⟩
    g.err = none ∧ (∀ sr ∈ g.out, sr.acTypes = [ty]) ∧
    ∃ l, IsGrid (sp * 1000000000) s e l ∧
      g.out.flatMap LSeries.rows = l.map (fun t => (t, some ((ms.map (fun m => v m t)).sum))) := by
  have hreq : convertToCols [⟨"power", some ty, none, none⟩] (.one "power") (.one "best") none = .ok [("power", ty)] := by
    simp only [List.mem_cons, List.not_mem_nil, or_false] at hty
    rcases hty with rfl | rfl | rfl <;> decide +kernel
  obtain ⟨h1, h2, l, h3, h4⟩ := C85_total_partial ms hne hst ("power", ty) (by simp) hcol hM sp c hsp hc hday f s e hf hse hs v hv
    (.one "power") (.one "best") none hreq
  simp only [groupPowerSeries, groupSeries, if_true]
  rw [h1]
  generalize (groupLoad (ms.map ColumnMeter.toLMeter) ⟨some (sp : Rat), some [f], some (c : Int), .one "power", .one "best", none⟩).out = chunks at *
  have hs : ∀ ch ∈ chunks, ∃ sr, seriesOfChunk "power" ch = .ok sr ∧ (sr.acTypes = [ty] ∧ sr.rows = chunkRows 0 ch) := by
    intro ch hch
    obtain ⟨q1, q2, cells, q3, q4⟩ := h2 ch hch
    refine ⟨⟨[ty], chunkRows 0 ch⟩, ?_, rfl, rfl⟩
    unfold seriesOfChunk chunkRows
    rw [if_neg (by simp [q1, q2])]
    simp only [q1, q3, List.zip_cons_cons, List.zip_nil_left, List.filter_cons, beq_self_eq_true, if_true, List.filter_nil,
      List.map_cons, List.map_nil, if_neg (List.cons_ne_nil _ _), Except.ok.injEq, LSeries.mk.injEq, true_and, List.getD_cons_zero]
    apply List.ext_getElem (by simp [q4])
    intro i i1 i2
    have hi1 : i < ch.index.length := by simpa using i1
    have hi2 : i < cells.length := by omega
    simp only [List.getElem_map, List.getElem_range, List.getElem_zip, List.getD_eq_getElem?_getD, List.getElem?_eq_getElem hi1,
      List.getElem?_eq_getElem hi2, Option.getD_some]
    cases cells[i] <;> simp [strictSum]
  obtain ⟨out, h5, h6⟩ := yieldEach_exists hs
  rw [h5]
  refine ⟨rfl, ?_, l, h3, ?_⟩
  · intro sr hsr
    obtain ⟨ch, _, hch, _⟩ := forall2_mem_right h6 hsr
    exact hch
  · rw [← h4]
    symm
    exact flatMap_of_forall2 h6 (fun ch sr hr => hr.2.symm)

/-! ### Default sections -/

/-- C85: without `sections` the group loads one section: from the first row of any member to the last row of any member. -/
theorem C85_default_section (ms : List ColumnMeter) (hne : ms ≠ []) (hst : ∀ m ∈ ms, StoredTable m.table) (k : GLoadKw)
    (hk : k.sections = none) :
    ∃ f s e, HalfOpen f s e ∧ (∀ m ∈ ms, ∀ r ∈ m.table, s ≤ r.1 ∧ r.1 ≤ e) ∧ (∃ m ∈ ms, ∃ r ∈ m.table, r.1 = e) ∧
      groupLoad (ms.map ColumnMeter.toLMeter) k = groupLoad (ms.map ColumnMeter.toLMeter) { k with sections := some [f] } := by
  obtain ⟨f, s, e, h1, h2, h3, h4, h5⟩ := groupFrame_stored ms hne hst
  refine ⟨f, s, e, h2, h4, h5, ?_⟩
  unfold groupLoad
  simp only [h1, hk, Option.getD_none, Option.toList_some, Option.getD_some]

/-- C85: `load()` without sections never has the time of the last reading of the group, although every member's own `load()` has it:
the time frame of the group ends there and the index stops before the end. -/
theorem C85_last_reading_counterexample (ms : List ColumnMeter) (hne : ms ≠ []) (hst : ∀ m ∈ ms, StoredTable m.table) (k : GLoadKw)
    (hk : k.sections = none) : ∃ last, (∃ m ∈ ms, ∃ r ∈ m.table, r.1 = last) ∧
      ∀ ch ∈ (groupLoad (ms.map ColumnMeter.toLMeter) k).out, ∀ t ∈ ch.index, t < last := by
  obtain ⟨f, s, e, h1, h2, h3, h4, h5⟩ := groupFrame_stored ms hne hst
  refine ⟨e, h5, ?_⟩
  intro ch hch t ht
  unfold groupLoad at hch
  cases g1 : groupPeriod (ms.map ColumnMeter.toLMeter) with
  | error x => rw [g1] at hch; simp [Gen.raise] at hch
  | ok period =>
    cases g2 : groupColumns (ms.map ColumnMeter.toLMeter) k.pq k.ac k.columns with
    | error x => rw [g1, h1, g2] at hch; simp [Gen.raise] at hch
    | ok columns =>
      simp only [g1, h1, g2, hk, Option.getD_none, Option.toList_some, if_neg (List.cons_ne_nil _ _)] at hch
      obtain ⟨p, hp, hpc⟩ := yieldEach_mem hch
      generalize thresholdNs (k.samplePeriod.getD period) (k.chunksize.getD maxMemAllowance) = thr at hp
      have hp' : p ∈ (f.split thr).out := by
        unfold splitTimeframes Gen.append at hp
        cases he : (f.split thr).err with
        | some x => rw [he] at hp; exact hp
        | none => rw [he] at hp; simpa [splitTimeframes, Gen.done] using hp
      obtain ⟨a, b, firsts, q1, q2, q3, q4, -⟩ := loadPiece_ok hpc
      rw [q4] at ht
      have htb := ((dateRange_grid _ _ _ q3).2 t).1 ht
      by_cases hthr : 0 < thr
      · obtain ⟨-, t2, -⟩ := C05_split_tiles f s e thr h2 h3 hthr
        obtain ⟨x, y, a1, a2, a3, a4⟩ := mem_tiles t2 p hp'
        have : b = y := by rw [a1.2.2.2] at q2; simpa using q2.symm
        omega
      · rw [C05_split_errors f s e thr h2.2.2.1 h2.2.2.2 h3 (by omega)] at hp'
        simp at hp'

/-- C85: without `sample_period` the greatest sample period of the members is used, without `chunksize` 2 to the power 28. -/
theorem C85_default_period (ms : List LMeter) (hne : ms ≠ []) (k : GLoadKw) (hk : k.samplePeriod = none) :
    ∃ p, (∃ m ∈ ms, m.samplePeriod = p) ∧ (∀ m ∈ ms, m.samplePeriod ≤ p) ∧
      groupLoad ms k = groupLoad ms { k with samplePeriod := some p } ∧
      (k.chunksize = none → groupLoad ms k = groupLoad ms { k with samplePeriod := some p, chunksize := some 268435456 }) := by
  have hmax : ∀ (l : List LMeter) (a : Rat), a ≤ l.foldl (fun p x => max p x.samplePeriod) a ∧
      (∀ m ∈ l, m.samplePeriod ≤ l.foldl (fun p x => max p x.samplePeriod) a) ∧
      (l.foldl (fun p x => max p x.samplePeriod) a = a ∨ ∃ m ∈ l, m.samplePeriod = l.foldl (fun p x => max p x.samplePeriod) a) := by
    intro l
    induction l with
    | nil => intro a; simp
    | cons x l ih =>
      intro a
      obtain ⟨h1, h2, h3⟩ := ih (max a x.samplePeriod)
      simp only [List.foldl_cons]
      refine ⟨le_trans (le_max_left _ _) h1, ?_, ?_⟩
      · intro m hm
        rcases List.mem_cons.1 hm with rfl | hm
        · exact le_trans (le_max_right _ _) h1
        · exact h2 m hm
      · rcases h3 with h3 | ⟨m, hm, h3⟩
        · rcases max_choice a x.samplePeriod with h | h
          · left; rw [h3, h]
          · right; exact ⟨x, List.mem_cons_self, by rw [h3, h]⟩
        · exact Or.inr ⟨m, List.mem_cons_of_mem _ hm, h3⟩
  cases ms with
  | nil => exact absurd rfl hne
  | cons m ms =>
    obtain ⟨h1, h2, h3⟩ := hmax ms m.samplePeriod
    have hp : groupPeriod (m :: ms) = .ok (ms.foldl (fun p x => max p x.samplePeriod) m.samplePeriod) := rfl
    refine ⟨ms.foldl (fun p x => max p x.samplePeriod) m.samplePeriod, ?_, ?_, ?_, ?_⟩
    · rcases h3 with h3 | ⟨x, hx, h3⟩
      · exact ⟨m, List.mem_cons_self, h3.symm⟩
      · exact ⟨x, List.mem_cons_of_mem _ hx, h3⟩
    · intro x hx
      rcases List.mem_cons.1 hx with rfl | hx
      · exact h1
      · exact h2 x hx
    · unfold groupLoad
      simp only [hp, hk, Option.getD_none, Option.getD_some]
    · intro hc
      have hmem : maxMemAllowance = 268435456 := by decide
      unfold groupLoad
      simp only [hp, hk, hc, Option.getD_none, Option.getD_some, hmem]

/-! ### Exceptions -/

/-- C85: a group without members cannot be loaded. -/
theorem C85_no_members (k : GLoadKw) : groupLoad [] k = ⟨[], some .valueError⟩ := rfl

/-- C85: no sections: one chunk without rows, with the columns of the members. -/
theorem C85_no_sections (ms : List LMeter) (k : GLoadKw) (hk : k.sections = some []) (hok : (groupLoad ms k).err = none) :
    ∃ ch, (groupLoad ms k).out = [ch] ∧ ch.index = [] ∧
      ∀ col, col ∈ ch.columns ↔ ∃ m ∈ ms, ∃ cols, convertToCols m.measurements k.pq k.ac k.columns = .ok cols ∧ col ∈ cols := by
  have hex : ∃ ch, (groupLoad ms k).out = [ch] ∧ ch.index = [] := by
    unfold groupLoad at hok ⊢
    cases h1 : groupPeriod ms with
    | error e => rw [h1] at hok; simp [Gen.raise] at hok
    | ok period =>
      cases h2 : unionFrames none (ms.map LMeter.frame) with
      | error e => rw [h1, h2] at hok; simp [Gen.raise] at hok
      | ok frame =>
        cases h3 : groupColumns ms k.pq k.ac k.columns with
        | error e => rw [h1, h2, h3] at hok; simp [Gen.raise] at hok
        | ok columns => exact ⟨_, by simp [hk]; rfl, rfl⟩
  obtain ⟨ch, h1, h2⟩ := hex
  exact ⟨ch, h1, h2, (C85_columns ms k ch (by rw [h1]; exact List.mem_singleton_self _)).2⟩

theorem yieldEach_first_error {α β : Type} {f : α → Except Err β} {err : Option Err} {l : List α} {x : α} {e : Err} (hx : f x = .error e) :
    yieldEach f err (x :: l) = ⟨[], some e⟩ := by rw [yieldEach, hx]; rfl

/-- C85: a sample period below one second always raises: it becomes a frequency of 0. -/
theorem C85_subsecond_counterexample (ms : List LMeter) (k : GLoadKw) (sp : Rat) (f : TF) (fs : List TF) (s e : Int)
    (hsp : k.samplePeriod = some sp) (h0 : 0 ≤ sp) (h1 : sp < 1) (hk : k.sections = some (f :: fs)) (hf : HalfOpen f s e) (hse : s < e) :
    (groupLoad ms k).out = [] ∧ (groupLoad ms k).err ≠ none := by
  have hz : freqNs sp = 0 := by
    unfold freqNs
    rw [if_pos h0, Int.floor_eq_zero_iff.2 ⟨h0, h1⟩]; rfl
  have hall : ∀ columns p, ∃ x, loadPiece ms sp columns p = .error x := by
    intro columns p
    unfold loadPiece normaliseTimestamp
    cases p.start with
    | none => exact ⟨_, rfl⟩
    | some t => rw [hz]; exact ⟨_, rfl⟩
  unfold groupLoad
  cases h1 : groupPeriod ms with
  | error e => exact ⟨rfl, by simp [Gen.raise]⟩
  | ok period =>
    cases h2 : unionFrames none (ms.map LMeter.frame) with
    | error e => exact ⟨rfl, by simp [Gen.raise]⟩
    | ok frame =>
      cases h3 : groupColumns ms k.pq k.ac k.columns with
      | error e => exact ⟨rfl, by simp [Gen.raise]⟩
      | ok columns =>
        simp only [hk, hsp, Option.getD_some, if_neg (List.cons_ne_nil _ _)]
        generalize thresholdNs sp (k.chunksize.getD maxMemAllowance) = thr
        cases ho : (splitTimeframes (f :: fs) thr).out with
        | cons p ps =>
          obtain ⟨x, hx⟩ := hall columns p
          rw [yieldEach_first_error hx]
          exact ⟨rfl, by simp⟩
        | nil =>
          cases he : (splitTimeframes (f :: fs) thr).err with
          | some x => exact ⟨rfl, by simp [yieldEach]⟩
          | none =>
            exfalso
            obtain ⟨g1, g2⟩ := splitTimeframes_ok he
            rw [ho, List.flatMap_cons] at g1
            have hnil : (f.split thr).out = [] := (List.append_eq_nil_iff.1 g1.symm).1
            by_cases hthr : 0 < thr
            · obtain ⟨-, t2, -⟩ := C05_split_tiles f s e thr hf hse hthr
              rw [hnil] at t2
              cases t2
              omega
            · have := g2 f List.mem_cons_self
              rw [C05_split_errors f s e thr hf.2.2.1 hf.2.2.2 hse (by omega)] at this
              simp at this

/-- C85: the check for empty sections does not drop anything (every `TimeFrame` is true in Python 3): a first section that is empty or
open-ended makes `load` raise before it yields anything. -/
theorem C85_empty_section_counterexample (ms : List LMeter) (k : GLoadKw) (f : TF) (fs : List TF) (hk : k.sections = some (f :: fs))
    (hf : f.start = none ∨ f.stop = none) : (groupLoad ms k).out = [] ∧ (groupLoad ms k).err ≠ none := by
  have hall : ∀ sp columns, ∃ x, loadPiece ms sp columns f = .error x := by
    intro sp columns
    cases h : loadPiece ms sp columns f with
    | error x => exact ⟨x, rfl⟩
    | ok c =>
      obtain ⟨s, e, _, h1, h2, -⟩ := loadPiece_ok h
      rcases hf with hf | hf
      · rw [hf] at h1; cases h1
      · rw [hf] at h2; cases h2
  unfold groupLoad
  cases h1 : groupPeriod ms with
  | error e => exact ⟨rfl, by simp [Gen.raise]⟩
  | ok period =>
    cases h2 : unionFrames none (ms.map LMeter.frame) with
    | error e => exact ⟨rfl, by simp [Gen.raise]⟩
    | ok frame =>
      cases h3 : groupColumns ms k.pq k.ac k.columns with
      | error e => exact ⟨rfl, by simp [Gen.raise]⟩
      | ok columns =>
        simp only [hk, Option.getD_some, if_neg (List.cons_ne_nil _ _)]
        generalize thresholdNs (k.samplePeriod.getD period) (k.chunksize.getD maxMemAllowance) = thr
        have hsplit : f.split thr = ⟨[f], none⟩ ∨ ∃ x, f.split thr = ⟨[], some x⟩ := by
          unfold TF.split
          cases f.timedelta with
          | none => exact Or.inr ⟨_, rfl⟩
          | some d =>
            simp only
            split
            · exact Or.inl rfl
            · right
              rcases hf with hf | hf
              · rw [hf]; exact ⟨_, rfl⟩
              · rw [hf]; cases f.start <;> exact ⟨_, rfl⟩
        rcases hsplit with hs | ⟨x, hs⟩
        · obtain ⟨x, hx⟩ := hall (k.samplePeriod.getD period) columns
          simp only [splitTimeframes, hs, Gen.append, List.singleton_append]
          rw [yieldEach_first_error hx]
          exact ⟨rfl, by simp⟩
        · simp [splitTimeframes, hs, Gen.append, yieldEach]

/-! ### Counterexamples -/

theorem groupLoad_eq {ms : List LMeter} {k : GLoadKw} {period sp : Rat} {frame : Option TF} {columns : List Col} {secs pieces : List TF}
    {c : Int} (h1 : groupPeriod ms = .ok period) (h2 : unionFrames none (ms.map LMeter.frame) = .ok frame)
    (h3 : groupColumns ms k.pq k.ac k.columns = .ok columns) (hs : k.sections = some secs) (hne : secs ≠ [])
    (hsp : k.samplePeriod = some sp) (hc : k.chunksize = some c) (h4 : splitTimeframes secs (thresholdNs sp c) = ⟨pieces, none⟩) :
    groupLoad ms k = yieldEach (loadPiece ms sp columns) none pieces := by
  unfold groupLoad
  simp only [h1, h2, h3, hs, hsp, hc, Option.getD_some, if_neg hne, h4]

/-- A meter of active power with a reading of 1 every 10 seconds from 0 to 300. -/
def everyTen : ColumnMeter := ⟨("power", "active"), ⟨10, 10⟩, (List.range 31).map (fun i : Nat => (secs (10 * i), some 1))⟩

theorem splitTimeframes_one (f : TF) (thr : Int) (ps : List TF) (h : f.split thr = ⟨ps, none⟩) : splitTimeframes [f] thr = ⟨ps, none⟩ := by
  simp [splitTimeframes, h, Gen.append, Gen.done]

/-- C85: a section that does not start on the grid. The documentation guarantees at most `chunksize` rows per chunk, but the chunks
have `chunksize + 1` rows, and the time 10 is in two of them. -/
theorem C85_unaligned_counterexample :
    let m : ColumnMeter := ⟨("power", "active"), ⟨10, 10⟩, [(secs 0, some 1), (secs 10, some 1), (secs 20, some 1), (secs 30, some 1)]⟩
    let g := groupLoad [m.toLMeter] ⟨some 10, some [TF.mk' (some (secs 5)) (some (secs 25))], some 1, .none, .none, none⟩
    g.err = none ∧ g.out.map LChunk.index = [[secs 0, secs 10], [secs 10, secs 20]] := by
  intro m
  have h := groupLoad_eq (ms := [m.toLMeter]) (k := ⟨some 10, some [TF.mk' (some (secs 5)) (some (secs 25))], some 1, .none, .none, none⟩)
    (period := 10) (frame := some (TF.mk' (some (secs 0)) (some (secs 30)))) (columns := [("power", "active")])
    (secs := [TF.mk' (some (secs 5)) (some (secs 25))])
    (pieces := [TF.mk' (some (secs 5)) (some (secs 15)), TF.mk' (some (secs 15)) (some (secs 25))])
    (sp := 10) (c := 1) (by decide +kernel) (by decide +kernel) (by decide +kernel) rfl (by simp) rfl rfl
    (by
      rw [show thresholdNs 10 1 = secs 10 by decide +kernel]
      apply splitTimeframes_one
      simp [TF.split, TF.timedelta, mk', TF.start, TF.stop, splitLoop, Gen.cons, secs])
  simp only [h]
  exact ⟨by decide +kernel, by decide +kernel⟩

/-- C85: a sample period of 7 seconds, which does not divide a day: the grid is counted anew from midnight. Although the section starts
on the grid of its day, the time 86407 is in two chunks, and chunks have more than `chunksize` rows. -/
theorem C85_midnight_counterexample :
    let m : ColumnMeter := ⟨("power", "active"), ⟨7, 7⟩, [(secs 86394, some 1), (secs 86402, some 1), (secs 86420, some 1)]⟩
    let g := groupLoad [m.toLMeter] ⟨some 7, some [TF.mk' (some (secs 86394)) (some (secs 86415))], some 1, .none, .none, none⟩
    g.err = none ∧ g.out.map LChunk.index = [[secs 86394], [secs 86400, secs 86407], [secs 86407, secs 86414]] := by
  intro m
  have h := groupLoad_eq (ms := [m.toLMeter]) (k := ⟨some 7, some [TF.mk' (some (secs 86394)) (some (secs 86415))], some 1, .none, .none, none⟩)
    (period := 7) (frame := some (TF.mk' (some (secs 86394)) (some (secs 86420)))) (columns := [("power", "active")])
    (secs := [TF.mk' (some (secs 86394)) (some (secs 86415))])
    (pieces := [TF.mk' (some (secs 86394)) (some (secs 86401)), TF.mk' (some (secs 86401)) (some (secs 86408)),
      TF.mk' (some (secs 86408)) (some (secs 86415))])
    (sp := 7) (c := 1) (by decide +kernel) (by decide +kernel) (by decide +kernel) rfl (by simp) rfl rfl
    (by
      rw [show thresholdNs 7 1 = secs 7 by decide +kernel]
      apply splitTimeframes_one
      simp [TF.split, TF.timedelta, mk', TF.start, TF.stop, splitLoop, Gen.cons, secs])
  simp only [h]
  exact ⟨by decide +kernel, by decide +kernel⟩

/-- C85: readings are not carried on across chunks, so the result depends on the chunk size when readings are missing. -/
theorem C85_gap_counterexample :
    let m : ColumnMeter := ⟨("power", "active"), ⟨10, 60⟩, [(secs 0, some 5), (secs 30, some 7), (secs 60, some 9)]⟩
    let g := fun c => groupLoad [m.toLMeter] ⟨some 10, some [TF.mk' (some (secs 0)) (some (secs 40))], some c, .none, .none, none⟩
    (g 4).out.flatMap (chunkRows 0) = [(secs 0, some 5), (secs 10, some 5), (secs 20, some 5), (secs 30, some 7)] ∧
    (g 2).out.flatMap (chunkRows 0) = [(secs 0, some 5), (secs 10, none), (secs 20, none), (secs 30, some 7)] := by
  intro m
  have h := fun (c : Int) (pieces : List TF) hp => groupLoad_eq (ms := [m.toLMeter])
    (k := ⟨some 10, some [TF.mk' (some (secs 0)) (some (secs 40))], some c, .none, .none, none⟩)
    (period := 10) (frame := some (TF.mk' (some (secs 0)) (some (secs 60)))) (columns := [("power", "active")])
    (secs := [TF.mk' (some (secs 0)) (some (secs 40))]) (pieces := pieces)
    (sp := 10) (c := c) (by decide +kernel) (by decide +kernel)
    (show groupColumns [m.toLMeter] .none .none none = _ by decide +kernel) rfl (by simp) rfl rfl hp
  refine ⟨?_, ?_⟩
  · simp only [h 4 [TF.mk' (some (secs 0)) (some (secs 40))] (by
      rw [show thresholdNs 10 4 = secs 40 by decide +kernel]
      apply splitTimeframes_one
      simp [TF.split, TF.timedelta, mk', TF.start, TF.stop, secs])]
    decide +kernel
  · simp only [h 2 [TF.mk' (some (secs 0)) (some (secs 20)), TF.mk' (some (secs 20)) (some (secs 40))] (by
      rw [show thresholdNs 10 2 = secs 20 by decide +kernel]
      apply splitTimeframes_one
      simp [TF.split, TF.timedelta, mk', TF.start, TF.stop, splitLoop, Gen.cons, secs])]
    decide +kernel

/-- C85: a sample period of 1.5 seconds. The group rounds it down to 1 second, its members round it to 2: every other reading of the group is
missing although the meter has a reading every second. -/
theorem C85_fraction_counterexample :
    let m : ColumnMeter := ⟨("power", "active"), ⟨1, 1⟩, [(secs 0, some 1), (secs 1, some 1), (secs 2, some 1), (secs 3, some 1), (secs 4, some 1)]⟩
    let g := groupLoad [m.toLMeter] ⟨some (3 / 2), some [TF.mk' (some (secs 0)) (some (secs 4))], some 100, .none, .none, none⟩
    g.err = none ∧ g.out.flatMap (chunkRows 0) =
      [(secs 0, some 1), (secs 1, none), (secs 2, some 1), (secs 3, none)] := by
  intro m
  have h := groupLoad_eq (ms := [m.toLMeter]) (k := ⟨some (3 / 2), some [TF.mk' (some (secs 0)) (some (secs 4))], some 100, .none, .none, none⟩)
    (period := 1) (frame := some (TF.mk' (some (secs 0)) (some (secs 4)))) (columns := [("power", "active")])
    (secs := [TF.mk' (some (secs 0)) (some (secs 4))]) (pieces := [TF.mk' (some (secs 0)) (some (secs 4))])
    (sp := 3 / 2) (c := 100) (by decide +kernel) (by decide +kernel) (by decide +kernel) rfl (by simp) rfl rfl
    (by
      rw [show thresholdNs (3 / 2) 100 = secs 150 by decide +kernel]
      apply splitTimeframes_one
      simp [TF.split, TF.timedelta, mk', TF.start, TF.stop, secs])
  simp only [h]
  exact ⟨by decide +kernel, by decide +kernel⟩

/-- C85: `power_series` of a group whose members measure different types of power adds active and apparent power, and has no value where one
of the types has none, although `load` skips missing readings when it adds up meters of the same type. -/
theorem C85_mixed_counterexample :
    let a : ColumnMeter := ⟨("power", "active"), ⟨10, 10⟩, [(secs 0, some 100), (secs 10, some 100), (secs 60, some 100)]⟩
    let b : String → ColumnMeter := fun ty => ⟨("power", ty), ⟨10, 10⟩, [(secs 0, some 50), (secs 60, some 50)]⟩
    let g := fun ty => groupPowerSeries [a.toLMeter, (b ty).toLMeter]
      ⟨some 10, some [TF.mk' (some (secs 0)) (some (secs 20))], some 100, .none, .none, none⟩
    g "active" = ⟨[⟨["active"], [(secs 0, some 150), (secs 10, some 100)]⟩], none⟩ ∧
    g "apparent" = ⟨[⟨["active", "apparent"], [(secs 0, some 150), (secs 10, none)]⟩], none⟩ := by
  intro a b
  have h := fun (ty : String) (cols : List Col) h2 h3 => groupLoad_eq (ms := [a.toLMeter, (b ty).toLMeter])
    (k := ⟨some 10, some [TF.mk' (some (secs 0)) (some (secs 20))], some 100, .one "power", .one "best", none⟩)
    (period := 10) (frame := some (TF.mk' (some (secs 0)) (some (secs 60)))) (columns := cols)
    (secs := [TF.mk' (some (secs 0)) (some (secs 20))]) (pieces := [TF.mk' (some (secs 0)) (some (secs 20))])
    (sp := 10) (c := 100) (by simp [groupPeriod, a, b, ColumnMeter.toLMeter]) h2 h3 rfl (by simp) rfl rfl
    (by
      rw [show thresholdNs 10 100 = secs 1000 by decide +kernel]
      apply splitTimeframes_one
      simp [TF.split, TF.timedelta, mk', TF.start, TF.stop, secs])
  simp only [groupPowerSeries, groupSeries, if_true]
  rw [h "active" [("power", "active")] (by decide +kernel) (by decide +kernel),
    h "apparent" [("power", "active"), ("power", "apparent")] (by decide +kernel) (by decide +kernel)]
  exact ⟨by decide +kernel, by decide +kernel⟩

/-! ### The hypotheses are satisfiable -/

/-- Two meters with a reading at every time of the grid, loaded in chunks of 4: the hypotheses of `C85_total_partial` and
`C85_power_partial` hold. -/
example : ∃ (ms : List ColumnMeter) (v : ColumnMeter → Int → Rat) (f : TF), ms.length = 2 ∧ (∀ m ∈ ms, StoredTable m.table) ∧
    (∀ m ∈ ms, m.col = ("power", "active")) ∧ (∀ m ∈ ms, 0 < m.device.maxSamplePeriod) ∧ (10 : Nat) ∣ 86400 ∧
    HalfOpen f (secs 50) (secs 250) ∧ ((10 : Nat) * 1000000000 : Int) ∣ secs 50 ∧
    ∀ m ∈ ms, CompleteOn ((10 : Nat) * 1000000000) (secs 50) (secs 250) m.table (v m) := by
  refine ⟨[everyTen, everyTen], fun _ _ => 1, TF.mk' (some (secs 50)) (some (secs 250)), rfl, ?_, ?_, ?_, by decide, ⟨rfl, rfl, rfl, rfl⟩,
    by decide, ?_⟩
  · intro m hm
    simp only [List.mem_cons, List.not_mem_nil, or_false, or_self] at hm
    subst hm
    exact ⟨by decide +kernel, by decide +kernel⟩
  · intro m hm
    simp only [List.mem_cons, List.not_mem_nil, or_false, or_self] at hm
    subst hm
    rfl
  · intro m hm
    simp only [List.mem_cons, List.not_mem_nil, or_false, or_self] at hm
    subst hm
    decide +kernel
  · intro m hm
    simp only [List.mem_cons, List.not_mem_nil, or_false, or_self] at hm
    subst hm
    exact ⟨dateRangeLeft (10 * 1000000000) (secs 50) (secs 250), dateRange_grid _ _ _ (by decide), by decide +kernel⟩

/-- The hypotheses of `C85_member` hold for a meter with a gap. -/
example : let m : ColumnMeter := ⟨("power", "active"), ⟨10, 20⟩, [(secs 3, some 5), (secs 8, some 7), (secs 41, some 9)]⟩
    HalfOpen (TF.mk' (some (secs 0)) (some (secs 50))) (secs 0) (secs 50) ∧ (m.table.map Prod.fst).Nodup ∧
      rowsIn (secs 0) (secs 50) m.table ≠ [] ∧ 0 < m.device.maxSamplePeriod :=
  ⟨⟨rfl, rfl, rfl, rfl⟩, by decide +kernel, by decide +kernel, by decide +kernel⟩

/-- The hypotheses of `C85_series` hold for a chunk with two columns. -/
example : let ch : LChunk := ⟨[0, 1], [("power", "active"), ("energy", "active")], [[some 1, none], [some 2, some 3]], none⟩
    ch.index ≠ [] ∧ ch.cells.length = ch.columns.length ∧ ∃ col ∈ ch.columns, col.1 = "power" :=
  ⟨by decide, rfl, ("power", "active"), by decide, rfl⟩

end Nilmtk
