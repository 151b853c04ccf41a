import Verif.Model.HartDisagg
import Verif.Props.Hart
import Verif.Props.SteadyStates
import Verif.Props.Experiment
import Verif.Props.CO
/-!
C84: what `Hart85` predicts.
-/
namespace Nilmtk

/-! ### Specification -/

/-- `m` is the position of the first least element of `l`. -/
def FirstLeast (l : List Rat) (m : Nat) : Prop :=
  ∃ x, l[m]? = some x ∧ (∀ (j : Nat) (y : Rat), l[j]? = some y → x ≤ y) ∧
    ∀ (j : Nat) (y : Rat), j < m → l[j]? = some y → x < y

/-- Device `m` is the one whose power is nearest to the size of the step `v`; among equally near ones the first. -/
def NearestDevice (cs : List Rat) (v : Rat) (m : Nat) : Prop :=
  ∃ c, cs[m]? = some c ∧ (∀ (j : Nat) (d : Rat), cs[j]? = some d → |c - abs v| ≤ |d - abs v|) ∧
    ∀ (j : Nat) (d : Rat), j < m → cs[j]? = some d → |c - abs v| < |d - abs v|

/-- The device is switched on at `t`. -/
def SwitchedOn (cs : List Rat) (tr : List (Int × Rat)) (m : Nat) (t : Int) : Prop :=
  ∃ v, (t, v) ∈ tr ∧ 0 < v ∧ NearestDevice cs v m

/-- The device is switched off at `t`. -/
def SwitchedOff (cs : List Rat) (tr : List (Int × Rat)) (m : Nat) (t : Int) : Prop :=
  ∃ v, (t, v) ∈ tr ∧ v ≤ 0 ∧ NearestDevice cs v m

/-- The state of device `m` at `t`. -/
def StateIs (cs : List Rat) (tr : List (Int × Rat)) (m : Nat) (t : Int) (s : Int) : Prop :=
  (s = 1 ∧ SwitchedOn cs tr m t) ∨ (s = 0 ∧ SwitchedOff cs tr m t) ∨
    (s = -1 ∧ ¬ SwitchedOn cs tr m t ∧ ¬ SwitchedOff cs tr m t)

/-- What the trace of device `m` shows, given the reported steps `tr`: after a switch-on its power, up to the next switch-off; after a
switch-off zero, up to and including the next switch-on; before any of its steps zero, unless it is switched on at the very last sample. The
power is `p`. -/
def TraceOf (cs : List Rat) (tr : List (Int × Rat)) (index : List Int) (m : Nat) (p : Int) (pw : List Int) : Prop :=
  pw.length = index.length ∧ (∀ x ∈ pw, x = 0 ∨ x = p) ∧
  (∀ (o k : Nat) (t : Int), index[o]? = some t → SwitchedOn cs tr m t → o < k → k < index.length - 1 →
    (∀ (j : Nat) (u : Int), o < j → j ≤ k → index[j]? = some u → ¬ SwitchedOff cs tr m u) → pw[k]? = some p) ∧
  (∀ (z k : Nat) (t : Int), index[z]? = some t → SwitchedOff cs tr m t → z < k → k < index.length →
    (∀ (j : Nat) (u : Int), z < j → j < k → index[j]? = some u → ¬ SwitchedOn cs tr m u) → pw[k]? = some 0) ∧
  (∀ (k : Nat), k < index.length → (∀ u, index.getLast? = some u → ¬ SwitchedOn cs tr m u) →
    (∀ (j : Nat) (u : Int), j < k → index[j]? = some u → ¬ SwitchedOn cs tr m u) → pw[k]? = some 0)

/-- `p` is the power `c` without its fraction. -/
def WholePart (c : Rat) (p : Int) : Prop := (0 ≤ c → (p : Rat) ≤ c ∧ c < p + 1) ∧ (c ≤ 0 → c ≤ p ∧ (p : Rat) < c + 1)

/-- The root mean square error of a trace over the samples it has in common with the readings. -/
noncomputable def rmseOver (trace : List Int) (gt : List Rat) : Real :=
  Real.sqrt (((List.zipWith (fun (x : Int) (y : Rat) => ((x : Rat) - y) ^ 2) trace gt).sum /
    ((min trace.length gt.length : Nat) : Rat) : Rat))

/-- Trace `m` fits the readings best; among equally good ones it is the first. -/
def BestFit (traces : List (List Int)) (gt : List Rat) (m : Nat) : Prop :=
  ∃ x, traces[m]? = some x ∧ (∀ (j : Nat) (y : List Int), traces[j]? = some y → rmseOver x gt ≤ rmseOver y gt) ∧
    ∀ (j : Nat) (y : List Int), j < m → traces[j]? = some y → rmseOver x gt < rmseOver y gt

/-! ### The first least element -/

theorem idxMin_error (l : List Rat) (e : Err) : idxMin l = .error e ↔ l = [] ∧ e = .valueError := by
  cases l with
  | nil => simp only [idxMin, Except.error.injEq, true_and, eq_comm]
  | cons x xs =>
    simp only [idxMin, reduceCtorEq, false_and, iff_false]
    cases idxMin xs with
    | error e' => simp
    | ok j => dsimp only; split <;> simp

theorem idxMin_spec : ∀ (l : List Rat) (m : Nat), idxMin l = .ok m → FirstLeast l m
  | [], m, h => by simp [idxMin] at h
  | x :: xs, m, h => by
    simp only [idxMin] at h
    cases hr : idxMin xs with
    | error e =>
      rw [hr] at h
      obtain ⟨rfl, _⟩ := (idxMin_error xs e).1 hr
      simp only [Except.ok.injEq] at h
      subst h
      refine ⟨x, rfl, ?_, fun j y hj => absurd hj (Nat.not_lt_zero _)⟩
      intro j y hy
      cases j with
      | zero => simp only [List.getElem?_cons_zero, Option.some.injEq] at hy; rw [hy]
      | succ j => simp at hy
    | ok j =>
      rw [hr] at h
      obtain ⟨y, hy, hle, hlt⟩ := idxMin_spec xs j hr
      have hd : xs.getD j 0 = y := by rw [List.getD_eq_getElem?_getD, hy]; rfl
      simp only [hd] at h
      split at h
      · rename_i hyx
        simp only [Except.ok.injEq] at h
        subst h
        refine ⟨y, by simpa using hy, ?_, ?_⟩
        · intro i z hz
          cases i with
          | zero => simp only [List.getElem?_cons_zero, Option.some.injEq] at hz; rw [← hz]; exact le_of_lt hyx
          | succ i => exact hle i z (by simpa using hz)
        · intro i z hi hz
          cases i with
          | zero => simp only [List.getElem?_cons_zero, Option.some.injEq] at hz; rw [← hz]; exact hyx
          | succ i => exact hlt i z (by omega) (by simpa using hz)
      · rename_i hyx
        simp only [Except.ok.injEq] at h
        subst h
        refine ⟨x, rfl, ?_, fun j y hj => absurd hj (Nat.not_lt_zero _)⟩
        intro i z hz
        cases i with
        | zero => simp only [List.getElem?_cons_zero, Option.some.injEq] at hz; rw [hz]
        | succ i => exact le_trans (not_lt.1 hyx) (hle i z (by simpa using hz))

theorem firstLeast_unique {l : List Rat} {m n : Nat} (h : FirstLeast l m) (k : FirstLeast l n) : m = n := by
  obtain ⟨x, hx, hle, hlt⟩ := h
  obtain ⟨y, hy, kle, klt⟩ := k
  rcases Nat.lt_trichotomy m n with h | h | h
  · exact absurd (hle n y hy) (not_le.2 (klt m x h hx))
  · exact h
  · exact absurd (kle m x hx) (not_le.2 (hlt n y h hy))

theorem nearest_iff_firstLeast (cs : List Rat) (v : Rat) (m : Nat) :
    NearestDevice cs v m ↔ FirstLeast (cs.map (fun c => |c - abs v|)) m := by
  constructor
  · rintro ⟨c, hc, h1, h2⟩
    refine ⟨|c - abs v|, by rw [List.getElem?_map, hc]; rfl, ?_, ?_⟩
    · intro j y hy
      rw [List.getElem?_map] at hy
      obtain ⟨d, hd, rfl⟩ := Option.map_eq_some_iff.1 hy
      exact h1 j d hd
    · intro j y hj hy
      rw [List.getElem?_map] at hy
      obtain ⟨d, hd, rfl⟩ := Option.map_eq_some_iff.1 hy
      exact h2 j d hj hd
  · rintro ⟨x, hx, h1, h2⟩
    rw [List.getElem?_map] at hx
    obtain ⟨c, hc, rfl⟩ := Option.map_eq_some_iff.1 hx
    refine ⟨c, hc, fun j d hd => h1 j _ (by rw [List.getElem?_map, hd]; rfl), fun j d hj hd => h2 j _ hj (by rw [List.getElem?_map, hd]; rfl)⟩

theorem nearest_unique {cs : List Rat} {v : Rat} {m n : Nat} (h : NearestDevice cs v m) (k : NearestDevice cs v n) : m = n :=
  firstLeast_unique ((nearest_iff_firstLeast cs v m).1 h) ((nearest_iff_firstLeast cs v n).1 k)

theorem leastDelta_ok {cs : List Rat} {v : Rat} {m : Nat} (h : leastDelta cs v = .ok m) : NearestDevice cs v m :=
  (nearest_iff_firstLeast cs v m).2 (idxMin_spec _ m h)

/-- A step is attributed to a device exactly when it is the nearest one; there is one unless no device was learnt. -/
theorem C84_nearest (cs : List Rat) (v : Rat) (hcs : cs ≠ []) :
    ∃ m, NearestDevice cs v m ∧ leastDelta cs v = .ok m ∧ ∀ n, NearestDevice cs v n → n = m := by
  cases h : leastDelta cs v with
  | error e =>
    have := ((idxMin_error _ e).1 h).1
    simp only [List.map_eq_nil_iff] at this
    exact absurd this hcs
  | ok m => exact ⟨m, leastDelta_ok h, rfl, fun n hn => nearest_unique hn (leastDelta_ok h)⟩

/-! ### States -/

/-- What the columns of `states` say after the transients `done`. -/
def StatesInv (cs : List Rat) (index : List Int) (done : List (Int × Rat)) (st : List (List Int)) : Prop :=
  st.length = cs.length ∧ ∀ (m : Nat) (col : List Int), st[m]? = some col → col.length = index.length ∧
    ∀ (i : Nat) (t s : Int), index[i]? = some t → col[i]? = some s → StateIs cs done m t s

theorem stateIs_congr {cs : List Rat} {d e : List (Int × Rat)} {m : Nat} {t s : Int}
    (h : ∀ v, NearestDevice cs v m → ((t, v) ∈ d ↔ (t, v) ∈ e)) (hs : StateIs cs d m t s) : StateIs cs e m t s := by
  have h1 : SwitchedOn cs d m t ↔ SwitchedOn cs e m t :=
    ⟨fun ⟨v, a, b, c⟩ => ⟨v, (h v c).1 a, b, c⟩, fun ⟨v, a, b, c⟩ => ⟨v, (h v c).2 a, b, c⟩⟩
  have h2 : SwitchedOff cs d m t ↔ SwitchedOff cs e m t :=
    ⟨fun ⟨v, a, b, c⟩ => ⟨v, (h v c).1 a, b, c⟩, fun ⟨v, a, b, c⟩ => ⟨v, (h v c).2 a, b, c⟩⟩
  unfold StateIs at *
  rwa [h1, h2] at hs

theorem increasing_getElem? {l : List Int} (h : l.Pairwise (fun a b => a < b)) {i j : Nat} {a b : Int} (hi : l[i]? = some a)
    (hj : l[j]? = some b) (hij : i < j) : a < b := by
  obtain ⟨h1, rfl⟩ := List.getElem?_eq_some_iff.1 hi
  obtain ⟨h2, rfl⟩ := List.getElem?_eq_some_iff.1 hj
  exact List.pairwise_iff_getElem.1 h i j h1 h2 hij

theorem increasing_between {l : List Int} (h : l.Pairwise (fun a b => a < b)) {a b t : Int} (ha : l.head? = some a)
    (hb : l.getLast? = some b) (ht : t ∈ l) : a ≤ t ∧ t ≤ b := by
  obtain ⟨i, hi⟩ := List.mem_iff_getElem?.1 ht
  have hi' := (List.getElem?_eq_some_iff.1 hi).1
  constructor
  · rw [List.head?_eq_getElem?] at ha
    rcases Nat.eq_zero_or_pos i with rfl | hpos
    · rw [ha, Option.some.injEq] at hi; omega
    · exact le_of_lt (increasing_getElem? h ha hi hpos)
  · rw [List.getLast?_eq_getElem?] at hb
    rcases Nat.lt_or_ge i (l.length - 1) with hlt | hge
    · exact le_of_lt (increasing_getElem? h hi hb hlt)
    · have : i = l.length - 1 := by omega
      rw [this, hb, Option.some.injEq] at hi; omega

theorem markTransients_inv (cs : List Rat) (index : List Int) (hix : index.Pairwise (fun a b => a < b)) :
    ∀ (tr done : List (Int × Rat)) (st st' : List (List Int)), ((done ++ tr).map Prod.fst).Nodup →
      StatesInv cs index done st → markTransients cs index tr st = .ok st' → StatesInv cs index (done ++ tr) st'
  | [], done, st, st', _, hinv, h => by
    simp only [markTransients, Except.ok.injEq] at h
    subst h
    simpa using hinv
  | (t, v) :: rest, done, st, st', hnd, hinv, h => by
    have hsplit : done ++ (t, v) :: rest = (done ++ [(t, v)]) ++ rest := by simp
    have hskip : t ∉ index → StatesInv cs index (done ++ [(t, v)]) st := by
      intro ht
      refine ⟨hinv.1, fun m col hm => ⟨(hinv.2 m col hm).1, ?_⟩⟩
      intro i t' s hi hs
      have hne : t' ≠ t := fun he => ht (he ▸ List.mem_iff_getElem?.2 ⟨i, hi⟩)
      refine stateIs_congr ?_ ((hinv.2 m col hm).2 i t' s hi hs)
      intro w _
      simp [hne]
    rw [hsplit] at hnd ⊢
    simp only [markTransients] at h
    cases ha : index.head? with
    | none => rw [ha] at h; simp at h
    | some a =>
      cases hb : index.getLast? with
      | none => rw [ha, hb] at h; simp at h
      | some b =>
        rw [ha, hb] at h
        dsimp only at h
        split at h
        · rename_i hlt
          exact markTransients_inv cs index hix rest _ st st' hnd
            (hskip (fun hm => by have := (increasing_between hix ha hb hm).1; omega)) h
        · split at h
          · rename_i _ hlt
            exact markTransients_inv cs index hix rest _ st st' hnd
              (hskip (fun hm => by have := (increasing_between hix ha hb hm).2; omega)) h
          · cases hd : leastDelta cs v with
            | error e => rw [hd] at h; simp at h
            | ok k =>
              rw [hd] at h
              dsimp only at h
              split at h
              · rename_i htm
                refine markTransients_inv cs index hix rest _ _ st' hnd ?_ h
                have hk := leastDelta_ok hd
                refine ⟨by rw [setState, List.length_modify]; exact hinv.1, ?_⟩
                intro m col hm
                unfold setState at hm
                rw [List.getElem?_modify] at hm
                obtain ⟨c0, hc0, hcol⟩ := Option.map_eq_some_iff.1 hm
                obtain ⟨hlen, hst⟩ := hinv.2 m c0 hc0
                have hpos : index.idxOf t < index.length := List.idxOf_lt_length_of_mem htm
                have hget : index[index.idxOf t]? = some t := by
                  rw [List.getElem?_eq_getElem hpos, List.getElem_idxOf]
                have hndone : ∀ w, (t, w) ∉ done := by
                  intro w hw
                  have : ((done ++ [(t, v)]).map Prod.fst).Nodup := by
                    rw [List.map_append] at hnd
                    exact (List.nodup_append.1 hnd).1
                  rw [List.map_append, List.nodup_append] at this
                  exact this.2.2 t (List.mem_map.2 ⟨(t, w), hw, rfl⟩) t (by simp) rfl
                by_cases hkm : k = m
                · rw [if_pos hkm] at hcol
                  subst hcol
                  refine ⟨by rw [List.length_set]; exact hlen, ?_⟩
                  intro i t' s hi hs
                  by_cases hii : index.idxOf t = i
                  · subst hii
                    rw [hget, Option.some.injEq] at hi
                    subst hi
                    rw [List.getElem?_set_self (by omega), Option.some.injEq] at hs
                    subst hs
                    subst hkm
                    by_cases hv : 0 < v
                    · rw [if_pos hv]
                      exact Or.inl ⟨rfl, v, by simp, hv, hk⟩
                    · rw [if_neg hv]
                      exact Or.inr (Or.inl ⟨rfl, v, by simp, not_lt.1 hv, hk⟩)
                  · rw [List.getElem?_set_ne hii] at hs
                    have hne : t' ≠ t := by
                      rintro rfl
                      rcases Nat.lt_trichotomy (index.idxOf t') i with h' | h' | h'
                      · exact absurd (increasing_getElem? hix hget hi h') (lt_irrefl _)
                      · exact hii h'
                      · exact absurd (increasing_getElem? hix hi hget h') (lt_irrefl _)
                    refine stateIs_congr ?_ (hst i t' s hi hs)
                    intro w _
                    simp [hne]
                · rw [if_neg hkm] at hcol
                  subst hcol
                  refine ⟨hlen, ?_⟩
                  intro i t' s hi hs
                  refine stateIs_congr ?_ (hst i t' s hi hs)
                  intro w hw
                  simp only [List.mem_append, List.mem_singleton, Prod.mk.injEq]
                  constructor
                  · exact Or.inl
                  · rintro (h' | ⟨rfl, rfl⟩)
                    · exact h'
                    · exact absurd (nearest_unique hk hw) hkm
              · simp at h

theorem statesInv_init (cs : List Rat) (index : List Int) :
    StatesInv cs index [] (cs.map (fun _ => List.replicate index.length (-1))) := by
  refine ⟨by simp, ?_⟩
  intro m col hm
  rw [List.getElem?_map] at hm
  obtain ⟨c, _, rfl⟩ := Option.map_eq_some_iff.1 hm
  refine ⟨by simp, ?_⟩
  intro i t s _ hs
  rw [List.getElem?_replicate] at hs
  split at hs
  · simp only [Option.some.injEq] at hs
    exact Or.inr (Or.inr ⟨hs.symm, by rintro ⟨v, h, _⟩; simp at h, by rintro ⟨v, h, _⟩; simp at h⟩)
  · simp at hs

/-- The state recorded for each device at each sample: 1 if an upward step nearest to this device is reported at this time, 0 for a downward
one, -1 for neither. -/
theorem C84_states (cs : List Rat) (index : List Int) (tr : List (Int × Rat)) (st : List (List Int))
    (hix : index.Pairwise (fun a b => a < b)) (htr : (tr.map Prod.fst).Nodup)
    (h : markTransients cs index tr (cs.map (fun _ => List.replicate index.length (-1))) = .ok st) :
    st.length = cs.length ∧ ∀ (m : Nat) (col : List Int), st[m]? = some col → col.length = index.length ∧
      ∀ (i : Nat) (t s : Int), index[i]? = some t → col[i]? = some s → StateIs cs tr m t s := by
  have := markTransients_inv cs index hix tr [] _ st (by simpa using htr) (statesInv_init cs index) h
  exact this

example : markTransients [100, 500] [0, 1, 2, 3] [(1, 480), (3, -120)] [[-1, -1, -1, -1], [-1, -1, -1, -1]] =
    .ok [[-1, -1, -1, 0], [-1, 1, -1, -1]] := by decide +kernel

/-! ### Traces -/

theorem truncInt_whole (c : Rat) : WholePart c (truncInt c) := by
  have hden : (0 : Int) < c.den := by exact_mod_cast c.den_pos
  have key : ∀ q : Rat, 0 ≤ q → (truncInt q : Rat) ≤ q ∧ q < truncInt q + 1 := by
    intro q hq
    have : truncInt q = ⌊q⌋ := by
      unfold truncInt
      rw [Rat.floor_def', Int.tdiv_eq_ediv_of_nonneg (Rat.num_nonneg.2 hq)]
    rw [this]
    exact ⟨Int.floor_le q, Int.lt_floor_add_one q⟩
  refine ⟨key c, fun hc => ?_⟩
  have h := key (-c) (by linarith)
  have hneg : truncInt (-c) = - truncInt c := by
    unfold truncInt
    rw [Rat.neg_num, Rat.neg_den, Int.neg_tdiv]
  rw [hneg] at h
  push_cast at h
  constructor
  · linarith [h.1]
  · linarith [h.2]

theorem switched_iff {cs : List Rat} {tr : List (Int × Rat)} (htr : (tr.map Prod.fst).Nodup) {m : Nat} {t s : Int} (h : StateIs cs tr m t s) :
    (s = 1 ↔ SwitchedOn cs tr m t) ∧ (s = 0 ↔ SwitchedOff cs tr m t) := by
  have hex : SwitchedOn cs tr m t → ¬ SwitchedOff cs tr m t := by
    rintro ⟨v, hv, hpos, _⟩ ⟨w, hw, hneg, _⟩
    have : v = w := by
      have := List.inj_on_of_nodup_map htr hv hw rfl
      exact (Prod.mk.injEq _ _ _ _ ▸ this).2
    rw [this] at hpos
    exact absurd hpos (not_lt.2 hneg)
  rcases h with ⟨rfl, h⟩ | ⟨rfl, h⟩ | ⟨rfl, h1, h2⟩
  · exact ⟨⟨fun _ => h, fun _ => rfl⟩, ⟨fun h' => absurd h' (by decide), fun h' => absurd h' (hex h)⟩⟩
  · exact ⟨⟨fun h' => absurd h' (by decide), fun h' => absurd h (hex h')⟩, ⟨fun _ => h, fun _ => rfl⟩⟩
  · exact ⟨⟨fun h' => absurd h' (by decide), fun h' => absurd h' h1⟩, ⟨fun h' => absurd h' (by decide), fun h' => absurd h' h2⟩⟩

theorem trace_of_states {cs : List Rat} {tr : List (Int × Rat)} (htr : (tr.map Prod.fst).Nodup) {index : List Int} {m : Nat} {c : Rat}
    {col : List Int} (hlen : col.length = index.length)
    (hst : ∀ (i : Nat) (t s : Int), index[i]? = some t → col[i]? = some s → StateIs cs tr m t s) :
    TraceOf cs tr index m (truncInt c) ((assignPower col (col.getLastD (-1)) [c]).map (fun r => r.headD 0)) := by
  obtain ⟨h1, h2⟩ := C49_exact col (col.getLastD (-1)) [c]
  have hget : ∀ (i : Nat) (t : Int), index[i]? = some t → StateIs cs tr m t (col.getD i 0) := by
    intro i t hi
    have hi' := (List.getElem?_eq_some_iff.1 hi).1
    refine hst i t _ hi ?_
    rw [List.getD_eq_getElem?_getD, List.getElem?_eq_getElem (by omega)]
    rfl
  have hix : ∀ i, i < index.length → ∃ t, index[i]? = some t := fun i hi => ⟨_, List.getElem?_eq_getElem hi⟩
  have hon : ∀ (i : Nat) (t : Int), index[i]? = some t → (col.getD i 0 = 1 ↔ SwitchedOn cs tr m t) :=
    fun i t hi => (switched_iff htr (hget i t hi)).1
  have hoff : ∀ (i : Nat) (t : Int), index[i]? = some t → (col.getD i 0 = 0 ↔ SwitchedOff cs tr m t) :=
    fun i t hi => (switched_iff htr (hget i t hi)).2
  have hzero : ∀ (k : Nat), (assignPower col (col.getLastD (-1)) [c])[k]? = some ([c].map (fun _ => (0 : Int))) →
      ((assignPower col (col.getLastD (-1)) [c]).map (fun r => r.headD 0))[k]? = some 0 := by
    intro k hk
    rw [List.getElem?_map, hk]; rfl
  refine ⟨by rw [List.length_map, h1, hlen], ?_, ?_, ?_, ?_⟩
  · intro x hx
    obtain ⟨r, hr, rfl⟩ := List.mem_map.1 hx
    obtain ⟨k, hk⟩ := List.mem_iff_getElem?.1 hr
    have hkl := (List.getElem?_eq_some_iff.1 hk).1
    rw [h2 k (by omega), Option.some.injEq] at hk
    split at hk
    · right; rw [← hk]; rfl
    · left; rw [← hk]; rfl
  · intro o k t ho hson hok hk hno
    rw [List.getElem?_map, h2 k (by omega), if_pos]
    · rfl
    · have hno' : ∀ j, o < j → j ≤ k → col.getD j 0 ≠ 0 := by
        intro j hj hjk h0
        obtain ⟨u, hu⟩ := hix j (by omega)
        exact hno j u hj hjk hu ((hoff j u hu).1 h0)
      refine Or.inl ⟨?_, hno' k hok (Nat.le_refl _), by omega⟩
      exact onPhase col _ (o + 1) k (Or.inl ((hon o t ho).2 hson)) (fun j h1 h2 => hno' j (by omega) (by omega)) k (by omega)
        (Nat.le_refl _)
  · intro z k t hz hsoff hzk hk hno
    refine hzero k (C49_off col _ [c] z k (by omega) ((hoff z t hz).2 hsoff) ?_ hzk)
    intro j hj hjk h0
    obtain ⟨u, hu⟩ := hix j (by omega)
    exact hno j u hj hjk hu ((hon j u hu).1 h0)
  · intro k hk hlast hno
    have hne : index ≠ [] := by rintro rfl; simp at hk
    obtain ⟨u, hu⟩ : ∃ u, index.getLast? = some u := ⟨_, List.getLast?_eq_some_getLast hne⟩
    have hu' := hu
    rw [List.getLast?_eq_getElem?] at hu'
    have hcl : col.getLastD (-1) = col.getD (index.length - 1) 0 := by
      have hcne : col ≠ [] := by rintro rfl; simp at hlen; omega
      rw [List.getLastD_eq_getLast?, List.getLast?_eq_some_getLast hcne, List.getD_eq_getElem?_getD, ← hlen, ← List.getLast?_eq_getElem?,
        List.getLast?_eq_some_getLast hcne]
      rfl
    have hne1 : col.getLastD (-1) ≠ 1 := by
      rw [hcl]
      exact fun h' => hlast u hu ((hon _ u hu').1 h')
    refine hzero k (C49_unknown_start col _ [c] k (by omega) ?_ ?_)
    · have := hget _ u hu'
      rw [← hcl] at this
      rcases this with ⟨h', _⟩ | ⟨h', _⟩ | ⟨h', _⟩
      · exact absurd h' hne1
      · exact Or.inr h'
      · exact Or.inl h'
    · intro j hj h0
      obtain ⟨w, hw⟩ := hix j (by omega)
      exact hno j w hj hw ((hon j w hw).1 h0)

/-- The traces of the learnt devices: one per device, following the reported steps. -/
def TracesOf (cs : List Rat) (tr : List (Int × Rat)) (index : List Int) (traces : List (List Int)) : Prop :=
  traces.length = cs.length ∧ ∀ (m : Nat) (c : Rat), cs[m]? = some c →
    ∃ p trace, traces[m]? = some trace ∧ WholePart c p ∧ TraceOf cs tr index m p trace

theorem C84_traces (cs : List Rat) (index : List Int) (tr : List (Int × Rat)) (traces : List (List Int))
    (hix : index.Pairwise (fun a b => a < b)) (htr : (tr.map Prod.fst).Nodup) (h : hartTraces cs index tr = .ok traces) :
    TracesOf cs tr index traces := by
  unfold hartTraces at h
  split at h
  · cases h
  · rename_i st hst
    obtain ⟨hl, hs⟩ := C84_states cs index tr st hix htr hst
    split at h
    · cases h
    · split at h
      · cases h
      · rw [Except.ok.injEq] at h
        subst h
        refine ⟨by rw [List.length_zipWith]; omega, ?_⟩
        intro m c hc
        have hm := (List.getElem?_eq_some_iff.1 hc).1
        have hcol : st[m]? = some st[m] := List.getElem?_eq_getElem (by omega)
        obtain ⟨a, b⟩ := hs m _ hcol
        refine ⟨truncInt c, _, ?_, truncInt_whole c, trace_of_states htr a b⟩
        rw [List.getElem?_zipWith, hcol, hc]

example : hartTraces [100, 500] [0, 1, 2, 3, 4, 5, 6] [(1, 480), (2, 110), (4, -501), (5, -102)] =
    .ok [[0, 0, 0, 100, 100, 0, 0], [0, 0, 500, 500, 0, 0, 0]] := by decide +kernel

theorem markTransients_total (cs : List Rat) (index : List Int) (hcs : cs ≠ []) (hne : index ≠ []) :
    ∀ (tr : List (Int × Rat)) (st : List (List Int)),
      (∀ e ∈ tr, e.1 ∈ index ∨ (∀ t ∈ index, e.1 < t) ∨ ∀ t ∈ index, t < e.1) → ∃ st', markTransients cs index tr st = .ok st'
  | [], st, _ => ⟨st, rfl⟩
  | (t, v) :: rest, st, h => by
    have hrest := markTransients_total cs index hcs hne rest
    simp only [markTransients]
    rw [List.head?_eq_some_head hne, List.getLast?_eq_some_getLast hne]
    dsimp only
    split
    · exact hrest st (fun e he => h e (by simp [he]))
    · split
      · exact hrest st (fun e he => h e (by simp [he]))
      · rename_i h1 h2
        obtain ⟨m, _, hm, _⟩ := C84_nearest cs v hcs
        rw [hm]
        dsimp only
        rw [if_pos]
        · exact hrest _ (fun e he => h e (by simp [he]))
        · rcases h (t, v) (by simp) with h' | h'
          · exact h'
          · exfalso
            rcases h' with h'' | h''
            · exact h1 (h'' _ (List.head_mem hne))
            · exact h2 (h'' _ (List.getLast_mem hne))

/-! ### Matching -/

theorem allMse_spec (gt : List Rat) (hgt : gt ≠ []) : ∀ (traces : List (List Int)), (∀ c ∈ traces, c.length = gt.length) →
    allMse gt traces = .ok (traces.map (fun c =>
      (List.zipWith (fun (x : Int) (y : Rat) => ((x : Rat) - y) ^ 2) c gt).sum / (gt.length : Nat)))
  | [], _ => rfl
  | c :: cs, h => by
    have hc := h c (by simp)
    have : traceMse c gt = .ok ((List.zipWith (fun (x : Int) (y : Rat) => ((x : Rat) - y) ^ 2) c gt).sum / (gt.length : Nat)) := by
      unfold traceMse
      rw [if_neg]
      rintro (h' | h')
      · exact h' hc
      · exact hgt h'
    simp only [allMse, this, allMse_spec gt hgt cs (fun d hd => h d (by simp [hd])), List.map_cons]

theorem zipWith_take_left {α β γ : Type} (f : α → β → γ) (a : List α) (b : List β) (n : Nat) (h : b.length ≤ n) :
    List.zipWith f (a.take n) b = List.zipWith f a b := by
  conv_lhs => rw [← List.take_of_length_le h]
  rw [← List.take_zipWith, List.take_of_length_le]
  rw [List.length_zipWith]; omega

theorem zipWith_take_right {α β γ : Type} (f : α → β → γ) (a : List α) (b : List β) (n : Nat) (h : a.length ≤ n) :
    List.zipWith f a (b.take n) = List.zipWith f a b := by
  conv_lhs => rw [← List.take_of_length_le h]
  rw [← List.take_zipWith, List.take_of_length_le]
  rw [List.length_zipWith]; omega

theorem zipWith_sq_nonneg (c : List Int) (gt : List Rat) :
    0 ≤ (List.zipWith (fun (x : Int) (y : Rat) => ((x : Rat) - y) ^ 2) c gt).sum := by
  apply List.sum_nonneg
  intro x hx
  obtain ⟨i, hi⟩ := List.mem_iff_getElem?.1 hx
  rw [List.getElem?_zipWith] at hi
  split at hi
  · rw [Option.some.injEq] at hi
    rw [← hi]
    exact sq_nonneg _
  · cases hi

theorem minRmse_values (n : Nat) (hn : 0 < n) (traces : List (List Int)) (hlen : ∀ c ∈ traces, c.length = n) (gt : List Rat) (hgt : gt ≠ []) :
    minRmseColumn n traces gt = idxMin (traces.map (fun c =>
      (List.zipWith (fun (x : Int) (y : Rat) => ((x : Rat) - y) ^ 2) c gt).sum / ((min c.length gt.length : Nat) : Rat))) := by
  have hpos : 0 < gt.length := List.length_pos_iff.2 hgt
  unfold minRmseColumn
  dsimp only
  by_cases h1 : gt.length < n
  · rw [if_pos h1, if_neg (by omega), allMse_spec gt hgt]
    · dsimp only
      congr 1
      rw [List.map_map]
      apply List.map_congr_left
      intro c hc
      simp only [Function.comp_apply]
      rw [zipWith_take_left _ c gt gt.length (Nat.le_refl _), hlen c hc, Nat.min_eq_right (by omega)]
    · intro c hc
      obtain ⟨d, hd, rfl⟩ := List.mem_map.1 hc
      rw [List.length_take, hlen d hd]
      omega
  · rw [if_neg h1]
    have hg : (if n < gt.length then gt.take n else gt) = gt.take n := by
      split
      · rfl
      · rw [List.take_of_length_le (by omega)]
    have hl : (gt.take n).length = n := by rw [List.length_take]; omega
    rw [hg, allMse_spec _ (by rw [← List.length_pos_iff, hl]; exact hn) _ (by rw [hl]; exact hlen)]
    dsimp only
    congr 1
    apply List.map_congr_left
    intro c hc
    rw [zipWith_take_right _ c gt n (by rw [hlen c hc]), hl, hlen c hc, Nat.min_eq_left (by omega)]

/-- The device chosen for an appliance is the first whose trace has the least root mean square error against the readings of the appliance, over
the samples they have in common. -/
theorem C84_best_fit (n : Nat) (hn : 0 < n) (traces : List (List Int)) (hlen : ∀ c ∈ traces, c.length = n) (gt : List Rat)
    (hgt : gt ≠ []) (m : Nat) (h : minRmseColumn n traces gt = .ok m) : BestFit traces gt m := by
  rw [minRmse_values n hn traces hlen gt hgt] at h
  obtain ⟨x, hx, hle, hlt⟩ := idxMin_spec _ m h
  rw [List.getElem?_map] at hx
  obtain ⟨c, hc, rfl⟩ := Option.map_eq_some_iff.1 hx
  refine ⟨c, hc, ?_, ?_⟩
  · intro j y hy
    have := hle j _ (by rw [List.getElem?_map, hy]; rfl)
    unfold rmseOver
    exact Real.sqrt_le_sqrt (by exact_mod_cast this)
  · intro j y hj hy
    have := hlt j _ hj (by rw [List.getElem?_map, hy]; rfl)
    unfold rmseOver
    refine Real.sqrt_lt_sqrt ?_ (by exact_mod_cast this)
    have h0 : (0 : Rat) ≤ (List.zipWith (fun (x : Int) (y : Rat) => ((x : Rat) - y) ^ 2) c gt).sum / ((min c.length gt.length : Nat) : Rat) :=
      div_nonneg (zipWith_sq_nonneg c gt) (by exact_mod_cast Nat.zero_le _)
    exact_mod_cast h0

/-- There is a choice as soon as a device was learnt. -/
theorem C84_best_fit_exists (n : Nat) (hn : 0 < n) (traces : List (List Int)) (hlen : ∀ c ∈ traces, c.length = n) (gt : List Rat)
    (hgt : gt ≠ []) (ht : traces ≠ []) : ∃ m, minRmseColumn n traces gt = .ok m := by
  rw [minRmse_values n hn traces hlen gt hgt]
  cases h : idxMin (traces.map (fun c =>
      (List.zipWith (fun (x : Int) (y : Rat) => ((x : Rat) - y) ^ 2) c gt).sum / ((min c.length gt.length : Nat) : Rat))) with
  | error e => exact absurd (List.map_eq_nil_iff.1 ((idxMin_error _ e).1 h).1) ht
  | ok m => exact ⟨m, rfl⟩

example : minRmseColumn 4 [[0, 0, 100, 0], [0, 500, 500, 0]] [0, 480, 510, 3, 77, 99] = .ok 1 := by decide +kernel
example : minRmseColumn 4 [[0, 0, 100, 0], [0, 500, 500, 0]] [0, 0] = .ok 0 := by decide +kernel

theorem matchLoop_ok (n : Nat) (traces : List (List Int)) : ∀ (apps : List (String × List (List Rat))) (d d' : List (String × Nat)),
    (apps.map Prod.fst).Nodup → matchLoop n traces apps d = .ok d' →
      (∀ a, a ∉ apps.map Prod.fst → d'.lookup a = d.lookup a) ∧
      ∀ e ∈ apps, ∃ gt rest m, e.2 = gt :: rest ∧ minRmseColumn n traces gt = .ok m ∧ d'.lookup e.1 = some m
  | [], d, d', _, h => by
    simp only [matchLoop, Except.ok.injEq] at h
    subst h
    exact ⟨fun _ _ => rfl, fun e he => absurd he (by simp)⟩
  | (a, []) :: rest, d, d', _, h => by simp [matchLoop] at h
  | (a, gt :: more) :: rest, d, d', hnd, h => by
    simp only [matchLoop] at h
    rw [List.map_cons, List.nodup_cons] at hnd
    split at h
    · cases h
    · rename_i m hm
      obtain ⟨h1, h2⟩ := matchLoop_ok n traces rest _ d' hnd.2 h
      refine ⟨?_, ?_⟩
      · intro b hb
        simp only [List.map_cons, List.mem_cons, not_or] at hb
        rw [h1 b hb.2, dictSet_lookup, if_neg hb.1]
      · intro e he
        rcases List.mem_cons.1 he with rfl | he
        · exact ⟨gt, more, m, rfl, hm, by rw [h1 a hnd.1, dictSet_lookup, if_pos rfl]⟩
        · exact h2 e he

/-! ### Edges -/

theorem hartEdges_times (threshold noise : Rat) (hn : 0 ≤ noise) (chunk : MainsChunk)
    (hix : (chunk.map Prod.fst).Pairwise (fun a b => a < b)) (tr : List (Int × Rat)) (h : hartEdges threshold noise chunk = .ok tr) :
    (tr.map Prod.fst).Nodup ∧ (∀ e ∈ tr, e.1 ∈ chunk.map Prod.fst ∧ noise < |e.2|) := by
  unfold hartEdges at h
  split at h
  · cases h
  · rename_i st tr' hs
    rw [Except.ok.injEq] at h
    subst h
    have hp : (chunk.map (fun r => (r.1, [r.2]))).Pairwise (fun (a b : PowerRow) => a.1 < b.1) := by
      rw [List.pairwise_map]
      rw [List.pairwise_map] at hix
      exact hix
    obtain ⟨hlt, h2⟩ := C48_meaning 1 threshold noise hn _ st tr' (by intro r hr; obtain ⟨q, _, rfl⟩ := List.mem_map.1 hr; rfl) hp hs
    obtain ⟨_, _, _, hmem⟩ := C48_reported_partial 1 threshold noise _ st tr' (hp.imp le_of_lt) hs
    refine ⟨?_, ?_⟩
    · rw [List.map_map]
      exact (hlt.imp ne_of_lt)
    · intro e he
      obtain ⟨q, hq, rfl⟩ := List.mem_map.1 he
      obtain ⟨⟨r, hr, hr'⟩, x, hx, hxn⟩ := hmem q hq
      obtain ⟨r0, hr0, rfl⟩ := List.mem_map.1 hr
      refine ⟨List.mem_map.2 ⟨r0, hr0, hr'⟩, ?_⟩
      have hlen : q.2.length ≤ 1 := by
        obtain ⟨i, hi⟩ := List.mem_iff_getElem?.1 hq
        obtain ⟨hil, rfl⟩ := List.getElem?_eq_some_iff.1 hi
        have hrel := h2.get (i := i) (by rw [h2.length_eq]; exact hil) hil
        obtain ⟨_, ⟨_, _, _, _, _, _, _, _, _, _, _, hm⟩, l, hl, _⟩ := hrel
        simp only [List.get_eq_getElem] at hl hm
        rw [hl, List.length_zipWith]
        have := hm.1
        omega
      match hq2 : q.2, hlen, hx with
      | [y], _, hx =>
        simp only [List.mem_singleton] at hx
        rw [← hx]
        exact hxn

/-! ### Fitting and predicting -/

/-- What a model holds after training on `main` and the readings of the appliances: the edges found in `main`, the traces of the learnt devices,
and for each appliance the device that fits its readings best. -/
structure Trained (prm : HartParams) (threshold noise : Rat) (meanShift : List Rat → Except Err (List Rat)) (main : MainsChunk)
    (apps : List (String × List (List Rat))) (H : HartModel) : Prop where
  names : H.appliances = apps.map Prod.fst
  levels : H.threshold = threshold ∧ H.noise = noise
  learnt : ∃ tr traces, hartEdges threshold noise main = .ok tr ∧ tr ≠ [] ∧
    meanShift ((hartPair prm (tr.map (fun e => ⟨e.1, e.2, none⟩))).pairs.map (fun pr => (|pr.1.p| + |pr.2.p|) / 2)) = .ok H.centroids ∧
    TracesOf H.centroids tr (main.map Prod.fst) traces ∧
    ∀ a gt, (∃ more, (a, gt :: more) ∈ apps) → gt ≠ [] → ∃ m, H.bestMatches.lookup a = some m ∧ BestFit traces gt m

theorem tracesOf_length {cs : List Rat} {tr : List (Int × Rat)} {index : List Int} {traces : List (List Int)}
    (h : TracesOf cs tr index traces) : ∀ c ∈ traces, c.length = index.length := by
  intro c hc
  obtain ⟨m, hm⟩ := List.mem_iff_getElem?.1 hc
  have hml := (List.getElem?_eq_some_iff.1 hm).1
  obtain ⟨p, t, ht, _, hto⟩ := h.2 m _ (List.getElem?_eq_getElem (by have := h.1; omega))
  rw [hm, Option.some.injEq] at ht
  rw [ht]
  exact hto.1

theorem hartTraces_index {cs : List Rat} {index : List Int} {tr : List (Int × Rat)} {traces : List (List Int)}
    (h : hartTraces cs index tr = .ok traces) : index ≠ [] ∧ tr ≠ [] := by
  unfold hartTraces at h
  split at h
  · cases h
  · split at h
    · cases h
    · split at h
      · cases h
      · exact ⟨by assumption, by assumption⟩

/-- What `partial_fit` learns. Only the first frame of the mains and the first frame of each appliance are used. -/
theorem C84_fit (prm : HartParams) (threshold noise : Rat) (hn : 0 ≤ noise) (meanShift : List Rat → Except Err (List Rat))
    (main : MainsChunk) (mains : List MainsChunk) (apps : List (String × List (List Rat))) (happs : (apps.map Prod.fst).Nodup)
    (hix : (main.map Prod.fst).Pairwise (fun a b => a < b)) (H : HartModel)
    (h : hartFit prm threshold noise meanShift (main :: mains) apps = .ok H) : Trained prm threshold noise meanShift main apps H := by
  simp only [hartFit] at h
  split at h
  · cases h
  · rename_i tr htr
    split at h
    · cases h
    · rename_i hne
      split at h
      · cases h
      · rename_i cs hcs
        split at h
        · cases h
        · rename_i traces htc
          split at h
          · cases h
          · rename_i d hd
            rw [Except.ok.injEq] at h
            subst h
            have hto := C84_traces cs _ tr traces hix (hartEdges_times threshold noise hn main hix tr htr).1 htc
            refine ⟨rfl, ⟨rfl, rfl⟩, tr, traces, htr, hne, hcs, hto, ?_⟩
            rintro a gt ⟨more, hmem⟩ hgt
            obtain ⟨gt', rest, m, he, hm, hl⟩ := (matchLoop_ok main.length traces apps [] d happs hd).2 _ hmem
            simp only [List.cons.injEq] at he
            rw [← he.1] at hm
            refine ⟨m, hl, C84_best_fit main.length ?_ traces ?_ gt hgt m hm⟩
            · have := (hartTraces_index htc).1
              rw [ne_eq, List.map_eq_nil_iff] at this
              exact List.length_pos_iff.2 this
            · have := tracesOf_length hto
              rwa [List.length_map] at this

theorem pickTraces_ok (H : HartModel) (traces : List (List Int)) : ∀ (as : List String) (d : List (String × List Int)),
    (∀ a ∈ as, ∃ m col, H.bestMatches.lookup a = some m ∧ traces[m]? = some col) → (as.Nodup) → (∀ a ∈ as, a ∉ d.map Prod.fst) →
      ∃ cols, pickTraces H traces as d = .ok (d ++ cols) ∧ cols.map Prod.fst = as ∧
        ∀ a col, (a, col) ∈ cols → ∃ m, H.bestMatches.lookup a = some m ∧ traces[m]? = some col
  | [], d, _, _, _ => ⟨[], by simp [pickTraces], rfl, by simp⟩
  | a :: as, d, h, hnd, hd => by
    obtain ⟨m, col, hm, hc⟩ := h a (by simp)
    rw [List.nodup_cons] at hnd
    obtain ⟨cols, h1, h2, h3⟩ := pickTraces_ok H traces as (d ++ [(a, col)]) (fun b hb => h b (by simp [hb])) hnd.2 (by
      intro b hb
      rw [List.map_append, List.mem_append]
      rintro (h' | h')
      · exact hd b (by simp [hb]) h'
      · simp only [List.map_cons, List.map_nil, List.mem_singleton] at h'
        exact hnd.1 (h' ▸ hb))
    refine ⟨(a, col) :: cols, ?_, by simp [h2], ?_⟩
    · simp only [pickTraces, hm, hc]
      rw [dictSet_new _ _ _ (hd a (by simp)), h1]
      simp
    · intro b c hb
      rcases List.mem_cons.1 hb with hb | hb
      · rw [Prod.mk.injEq] at hb
        obtain ⟨rfl, rfl⟩ := hb
        exact ⟨m, hm, hc⟩
      · exact h3 b c hb

/-- The prediction for one chunk: the index of the chunk, one column per appliance in the order of training, each the trace of the device matched to
the appliance, driven by the steps found in this chunk. It exists if every appliance has been matched to a learnt device and the chunk has a step. -/
theorem C84_predict (H : HartModel) (hn : 0 ≤ H.noise) (happ : H.appliances.Nodup) (hne : H.appliances ≠ [])
    (hm : ∀ a ∈ H.appliances, ∃ m, H.bestMatches.lookup a = some m ∧ m < H.centroids.length) (chunk : MainsChunk)
    (hix : (chunk.map Prod.fst).Pairwise (fun a b => a < b)) (tr : List (Int × Rat))
    (htr : hartEdges H.threshold H.noise chunk = .ok tr) (hev : tr ≠ []) :
    ∃ cols, hartDisaggregate H [chunk] = .ok [⟨chunk.map Prod.fst, cols⟩] ∧ cols.map Prod.fst = H.appliances ∧
      ∀ a pw, (a, pw) ∈ cols → ∃ m c p, H.bestMatches.lookup a = some m ∧ H.centroids[m]? = some c ∧ WholePart c p ∧
        TraceOf H.centroids tr (chunk.map Prod.fst) m p pw := by
  obtain ⟨hnd, htimes⟩ := hartEdges_times H.threshold H.noise hn chunk hix tr htr
  have hcs : H.centroids ≠ [] := by
    obtain ⟨a, ha⟩ := List.exists_mem_of_ne_nil _ hne
    obtain ⟨m, _, hlt⟩ := hm a ha
    rintro h
    simp [h] at hlt
  have hcne : chunk.map Prod.fst ≠ [] := by
    obtain ⟨e, he⟩ := List.exists_mem_of_ne_nil _ hev
    exact List.ne_nil_of_mem (htimes e he).1
  obtain ⟨st, hst⟩ := markTransients_total H.centroids (chunk.map Prod.fst) hcs hcne tr
    (H.centroids.map (fun _ => List.replicate (chunk.map Prod.fst).length (-1))) (fun e he => Or.inl (htimes e he).1)
  obtain ⟨traces, htc⟩ : ∃ traces, hartTraces H.centroids (chunk.map Prod.fst) tr = .ok traces := by
    unfold hartTraces
    rw [hst]
    dsimp only
    rw [if_neg hcne, if_neg hev]
    exact ⟨_, rfl⟩
  have hto := C84_traces _ _ _ _ hix hnd htc
  obtain ⟨cols, h1, h2, h3⟩ := pickTraces_ok H traces H.appliances [] (by
    intro a ha
    obtain ⟨m, hl, hlt⟩ := hm a ha
    have := hto.1
    exact ⟨m, traces[m], hl, List.getElem?_eq_getElem (by omega)⟩) happ (by simp)
  rw [List.nil_append] at h1
  have hcols : cols ≠ [] := by
    rintro rfl
    exact hne h2.symm
  refine ⟨cols, ?_, h2, ?_⟩
  · simp only [hartDisaggregate, List.headD_cons, disaggLoop, htr, htc, h1, if_neg hcols]
  · intro a pw ha
    obtain ⟨m, hl, hp⟩ := h3 a pw ha
    have hlt := (List.getElem?_eq_some_iff.1 hp).1
    have hcm : H.centroids[m]? = some (H.centroids[m]'(by have := hto.1; omega)) := List.getElem?_eq_getElem _
    obtain ⟨p, t, ht, hw, htr'⟩ := hto.2 m _ hcm
    rw [hp, Option.some.injEq] at ht
    rw [← ht] at htr'
    exact ⟨m, _, p, hl, hcm, hw, htr'⟩

/-- Training and then predicting: the columns are the traces of the devices whose training traces fit the appliances best. -/
theorem C84_train_predict (prm : HartParams) (threshold noise : Rat) (hn : 0 ≤ noise) (meanShift : List Rat → Except Err (List Rat))
    (main : MainsChunk) (mains : List MainsChunk) (apps : List (String × List (List Rat))) (happs : (apps.map Prod.fst).Nodup)
    (hne : apps ≠ []) (hgt : ∀ e ∈ apps, ∃ gt more, e.2 = gt :: more ∧ gt ≠ [])
    (hix : (main.map Prod.fst).Pairwise (fun a b => a < b)) (H : HartModel)
    (h : hartFit prm threshold noise meanShift (main :: mains) apps = .ok H) (chunk : MainsChunk)
    (hcx : (chunk.map Prod.fst).Pairwise (fun a b => a < b)) (tr : List (Int × Rat))
    (htr : hartEdges threshold noise chunk = .ok tr) (hev : tr ≠ []) :
    ∃ cols tr0 traces, hartDisaggregate H [chunk] = .ok [⟨chunk.map Prod.fst, cols⟩] ∧ cols.map Prod.fst = apps.map Prod.fst ∧
      hartEdges threshold noise main = .ok tr0 ∧ TracesOf H.centroids tr0 (main.map Prod.fst) traces ∧
      ∀ a pw, (a, pw) ∈ cols → ∃ m c p gt more, (a, gt :: more) ∈ apps ∧ BestFit traces gt m ∧ H.centroids[m]? = some c ∧ WholePart c p ∧
        TraceOf H.centroids tr (chunk.map Prod.fst) m p pw := by
  obtain ⟨hnm, ⟨ht, hno⟩, tr0, traces, h1, h2, h3, h4, h5⟩ := C84_fit prm threshold noise hn meanShift main mains apps happs hix H h
  have hlook : ∀ a ∈ H.appliances, ∃ m gt more, (a, gt :: more) ∈ apps ∧ H.bestMatches.lookup a = some m ∧ BestFit traces gt m := by
    intro a ha
    rw [hnm] at ha
    obtain ⟨e, he, rfl⟩ := List.mem_map.1 ha
    obtain ⟨gt, more, hg, hgne⟩ := hgt e he
    have hmem : (e.1, gt :: more) ∈ apps := by rw [← hg]; exact he
    obtain ⟨m, hm, hb⟩ := h5 e.1 gt ⟨more, hmem⟩ hgne
    exact ⟨m, gt, more, hmem, hm, hb⟩
  obtain ⟨cols, k1, k2, k3⟩ := C84_predict H (by rw [hno]; exact hn) (by rw [hnm]; exact happs) (by
      rw [hnm, ne_eq, List.map_eq_nil_iff]; exact hne) (by
      intro a ha
      obtain ⟨m, gt, more, _, hm, x, hx, _⟩ := hlook a ha
      refine ⟨m, hm, ?_⟩
      have := (List.getElem?_eq_some_iff.1 hx).1
      have := h4.1
      omega) chunk hcx tr (by rw [ht, hno]; exact htr) hev
  refine ⟨cols, tr0, traces, k1, by rw [k2, hnm], h1, h4, ?_⟩
  intro a pw ha
  obtain ⟨m, c, p, hl, hc, hw, hto⟩ := k3 a pw ha
  obtain ⟨m', gt, more, hmem, hm', hb⟩ := hlook a (by rw [← k2]; exact List.mem_map.2 ⟨_, ha, rfl⟩)
  rw [hl, Option.some.injEq] at hm'
  rw [← hm'] at hb
  exact ⟨m, c, p, gt, more, hmem, hb, hc, hw, hto⟩

/-! ### What is not as expected -/

/-- At most one frame is returned, however many are given. -/
theorem C84_one_frame (H : HartModel) (chunks : List MainsChunk) (fs : List HartFrame) (h : hartDisaggregate H chunks = .ok fs) :
    fs.length = 1 := by
  unfold hartDisaggregate at h
  split at h
  · cases h
  · cases h
  · split at h
    · cases h
    · rw [Except.ok.injEq] at h
      rw [← h]; rfl

/-- An appliance without a best match, or matched to a device that has not been learnt, is a `KeyError` if predicting works without
appliances. -/
theorem C84_unmatched (H : HartModel) (chunks : List MainsChunk) (hix : ∀ c ∈ chunks, (c.map Prod.fst).Pairwise (fun a b => a < b))
    (hn : 0 ≤ H.noise) (fs : List HartFrame) (h : hartDisaggregate { H with appliances := [] } chunks = .ok fs) (a : String)
    (ha : a ∈ H.appliances) (hm : ∀ m, H.bestMatches.lookup a = some m → H.centroids.length ≤ m) :
    hartDisaggregate H chunks = .error .keyError := by
  have hsame : ∀ first cs acc, disaggLoop { H with appliances := [] } first cs acc = disaggLoop H first cs acc := by
    intro first cs
    induction cs with
    | nil => exact fun _ => rfl
    | cons c cs ih =>
      intro acc
      simp only [disaggLoop]
      split
      · rfl
      · split
        · rfl
        · exact ih _
  unfold hartDisaggregate at h ⊢
  rw [hsame] at h
  have hlen : ∀ ix traces, disaggLoop H (chunks.headD []) chunks none = .ok (some (ix, traces)) → traces.length = H.centroids.length := by
    have hfirst : ((chunks.headD []).map Prod.fst).Pairwise (fun a b => a < b) := by
      cases chunks with
      | nil => simp
      | cons c cs => exact hix c (by simp)
    have key : ∀ (cs : List MainsChunk) (acc : Option (List Int × List (List Int))),
        (∀ c ∈ cs, (c.map Prod.fst).Pairwise (fun a b => a < b)) → (∀ p, acc = some p → p.2.length = H.centroids.length) →
        ∀ p, disaggLoop H (chunks.headD []) cs acc = .ok (some p) → p.2.length = H.centroids.length := by
      intro cs
      induction cs with
      | nil =>
        intro acc _ hacc p hp
        simp only [disaggLoop, Except.ok.injEq] at hp
        exact hacc p hp
      | cons c cs ih =>
        intro acc hcs hacc p hp
        simp only [disaggLoop] at hp
        split at hp
        · cases hp
        · rename_i tr htr
          split at hp
          · cases hp
          · rename_i traces htc
            obtain ⟨hnd, _⟩ := hartEdges_times H.threshold H.noise hn _ hfirst tr htr
            refine ih _ (fun d hd => hcs d (by simp [hd])) ?_ p hp
            intro q hq
            cases hq
            exact (C84_traces _ _ _ _ (hcs c (by simp)) hnd htc).1
    intro ix traces ht
    exact key chunks none hix (by simp) _ ht
  split at h
  · cases h
  · cases h
  · rename_i ix traces ht
    have hl := hlen ix traces ht
    have hpick : ∀ (as : List String) (d : List (String × List Int)), a ∈ as → pickTraces H traces as d = .error .keyError := by
      intro as
      induction as with
      | nil => exact fun _ h => absurd h (by simp)
      | cons b as ih =>
        intro d hb
        rw [pickTraces]
        cases hlb : H.bestMatches.lookup b with
        | none => rfl
        | some m =>
          simp only
          cases hc : traces[m]? with
          | none => rfl
          | some col =>
            simp only
            rcases List.mem_cons.1 hb with rfl | hb
            · have h1 := hm m hlb
              have h2 := (List.getElem?_eq_some_iff.1 hc).1
              omega
            · exact ih _ hb
    rw [hpick H.appliances [] ha]

theorem C84_no_chunks (H : HartModel) : hartDisaggregate H [] = .error .unboundLocal := rfl

/-- A chunk of constant mains above the noise level makes the prediction fail, and so does training on it. -/
theorem C84_constant (H : HartModel) (hn : 0 ≤ H.noise) (ht : 0 ≤ H.threshold) (x : Rat) (hx : H.noise < x) (first : Int) (times : List Int) :
    hartDisaggregate H [(first :: times).map (fun t => (t, x))] = .error .unboundLocal := by
  have hed : hartEdges H.threshold H.noise ((first :: times).map (fun t => (t, x))) = .ok [] := by
    unfold hartEdges
    have hm : ((first :: times).map (fun t => (t, x))).map (fun r : Int × Rat => (r.1, [r.2])) = (first :: times).map (fun t => (t, [x])) := by
      rw [List.map_map]; rfl
    rw [hm, C48_constant H.threshold H.noise x hn ht hx first times]
    rfl
  simp only [hartDisaggregate, List.headD_cons, disaggLoop, hed, hartTraces, markTransients]
  rw [if_neg (by simp), if_pos trivial]

theorem C84_constant_fit (prm : HartParams) (threshold noise : Rat) (hn : 0 ≤ noise) (ht : 0 ≤ threshold)
    (meanShift : List Rat → Except Err (List Rat)) (mains : List MainsChunk) (apps : List (String × List (List Rat)))
    (x : Rat) (hx : noise < x) (first : Int) (times : List Int) :
    hartFit prm threshold noise meanShift ((first :: times).map (fun t => (t, x)) :: mains) apps = .error .attributeError := by
  have hed : hartEdges threshold noise ((first :: times).map (fun t => (t, x))) = .ok [] := by
    unfold hartEdges
    have hm : ((first :: times).map (fun t => (t, x))).map (fun r : Int × Rat => (r.1, [r.2])) = (first :: times).map (fun t => (t, [x])) := by
      rw [List.map_map]; rfl
    rw [hm, C48_constant threshold noise x hn ht hx first times]
    rfl
  simp only [hartFit, hed, if_pos]

/-- A model of two devices with two appliances. -/
def exHart : HartModel := ⟨["kettle", "fridge"], 15, 70, [100, 500], [("kettle", 1), ("fridge", 0)]⟩

/-- A chunk in which the larger device runs. -/
def exChunk (t : Int) : MainsChunk := [(t, 10), (t + 1, 10), (t + 2, 510), (t + 3, 510), (t + 4, 510), (t + 5, 10), (t + 6, 10), (t + 7, 10)]

example : (hartDisaggregate { exHart with appliances := [] } [exChunk 0]).isOk = true ∧
    hartDisaggregate { exHart with appliances := exHart.appliances ++ ["dish washer"] } [exChunk 0] = .error .keyError := by decide +kernel

example : hartEdges 15 70 (exChunk 0) = .ok [(2, 500), (5, -500)] := by decide +kernel

example : hartDisaggregate exHart [exChunk 0] =
    .ok [⟨[0, 1, 2, 3, 4, 5, 6, 7], [("kettle", [0, 0, 0, 500, 500, 0, 0, 0]), ("fridge", [0, 0, 0, 0, 0, 0, 0, 0])]⟩] := by
  decide +kernel

/-- With two chunks the result is one frame, for the second chunk, with the steps of the first: although the same device runs in both, nothing
is predicted. -/
theorem C84_second_chunk_counterexample : ∃ (H : HartModel) (a b : MainsChunk) (f g : HartFrame),
    hartDisaggregate H [a] = .ok [f] ∧ hartDisaggregate H [b] = .ok [g] ∧ hartDisaggregate H [a, b] ≠ .ok [f, g] ∧
    hartDisaggregate H [a, b] = .ok [⟨g.index, g.cols.map (fun c => (c.1, c.2.map (fun _ => 0)))⟩] ∧ ∃ c ∈ g.cols, ∃ x ∈ c.2, x ≠ 0 :=
  ⟨exHart, exChunk 0, exChunk 100,
    ⟨[0, 1, 2, 3, 4, 5, 6, 7], [("kettle", [0, 0, 0, 500, 500, 0, 0, 0]), ("fridge", [0, 0, 0, 0, 0, 0, 0, 0])]⟩,
    ⟨[100, 101, 102, 103, 104, 105, 106, 107], [("kettle", [0, 0, 0, 500, 500, 0, 0, 0]), ("fridge", [0, 0, 0, 0, 0, 0, 0, 0])]⟩,
    by decide +kernel, by decide +kernel, by decide +kernel, by decide +kernel, by decide +kernel⟩

/-- Two appliances may be matched to the same device, and then both are predicted to use its power: the predictions exceed the mains. -/
theorem C84_shared_counterexample : ∃ (H : HartModel) (chunk : MainsChunk) (f : HartFrame) (k : Nat),
    hartDisaggregate H [chunk] = .ok [f] ∧
    (((chunk.map Prod.snd)[k]?).getD 0 < ((f.cols.map (fun c => ((c.2[k]?).getD 0 : Int))).sum : Int)) :=
  ⟨{ exHart with bestMatches := [("kettle", 1), ("fridge", 1)] }, exChunk 0,
    ⟨[0, 1, 2, 3, 4, 5, 6, 7], [("kettle", [0, 0, 0, 500, 500, 0, 0, 0]), ("fridge", [0, 0, 0, 500, 500, 0, 0, 0])]⟩, 3,
    by decide +kernel, by decide +kernel⟩

/-- A device switched on at the very last sample is predicted to run from the first sample on: the state carried in from before the chunk is
taken from its end. -/
theorem C84_last_step_counterexample : ∃ (H : HartModel) (chunk : MainsChunk) (f : HartFrame),
    hartDisaggregate H [chunk] = .ok [f] ∧ (∀ r ∈ chunk.dropLast, r.2 = 10) ∧
    f.cols.lookup "kettle" = some [500, 500, 500, 0] :=
  ⟨exHart, [(0, 10), (1, 10), (2, 10), (3, 510)],
    ⟨[0, 1, 2, 3], [("kettle", [500, 500, 500, 0]), ("fridge", [0, 0, 0, 0])]⟩,
    by decide +kernel, by decide +kernel, by decide +kernel⟩

/-- Training on the chunk and predicting it. -/
example : hartFit ⟨20, 100, 7/200, 1000⟩ 15 70 (fun l => .ok (l.dedup)) [exChunk 0] [("kettle", [[0, 0, 500, 500, 500, 0, 0, 0]])] =
    .ok ⟨["kettle"], 15, 70, [500], [("kettle", 0)]⟩ := by decide +kernel

/-- In general a chunk that lies after the first gets no power at all, whatever its readings. -/
theorem C84_later_chunk (H : HartModel) (hn : 0 ≤ H.noise) (first last : MainsChunk)
    (hf : (first.map Prod.fst).Pairwise (fun a b => a < b)) (hl : (last.map Prod.fst).Pairwise (fun a b => a < b))
    (hlt : ∀ r ∈ first, ∀ q ∈ last, r.1 < q.1) (fs : List HartFrame) (h : hartDisaggregate H [first, last] = .ok fs) :
    ∀ f ∈ fs, ∀ c ∈ f.cols, ∀ x ∈ c.2, x = 0 := by
  simp only [hartDisaggregate, List.headD_cons, disaggLoop] at h
  cases htr : hartEdges H.threshold H.noise first with
  | error e => rw [htr] at h; cases h
  | ok tr =>
    rw [htr] at h
    dsimp only at h
    cases h1 : hartTraces H.centroids (first.map Prod.fst) tr with
    | error e => rw [h1] at h; cases h
    | ok t1 =>
      rw [h1] at h
      dsimp only at h
      cases h2 : hartTraces H.centroids (last.map Prod.fst) tr with
      | error e => rw [h2] at h; cases h
      | ok t2 =>
        rw [h2] at h
        dsimp only at h
        obtain ⟨hnd, htimes⟩ := hartEdges_times H.threshold H.noise hn first hf tr htr
        have hto := C84_traces _ _ _ _ hl hnd h2
        have hno : ∀ m u, u ∈ last.map Prod.fst → ¬ SwitchedOn H.centroids tr m u := by
          rintro m u hu ⟨v, hv, _⟩
          obtain ⟨q, hq, rfl⟩ := List.mem_map.1 hu
          obtain ⟨r, hr, hrq⟩ := List.mem_map.1 (htimes _ hv).1
          have := hlt r hr q hq
          simp only at hrq
          omega
        have hzero : ∀ c ∈ t2, ∀ x ∈ c, x = 0 := by
          intro c hc x hx
          obtain ⟨m, hm⟩ := List.mem_iff_getElem?.1 hc
          have hml := (List.getElem?_eq_some_iff.1 hm).1
          obtain ⟨p, t, ht, _, hto'⟩ := hto.2 m _ (List.getElem?_eq_getElem (by have := hto.1; omega))
          rw [hm, Option.some.injEq] at ht
          subst ht
          obtain ⟨k, hk⟩ := List.mem_iff_getElem?.1 hx
          have hkl := (List.getElem?_eq_some_iff.1 hk).1
          have := hto'.2.2.2.2 k (by rw [← hto'.1]; exact hkl) (fun u hu => hno m u (List.mem_of_getLast? hu))
            (fun j u _ hu => hno m u (List.mem_iff_getElem?.2 ⟨j, hu⟩))
          rw [hk, Option.some.injEq] at this
          exact this
        have hpick : ∀ (as : List String) (d cols : List (String × List Int)), (∀ c ∈ d, ∀ x ∈ c.2, x = 0) →
            pickTraces H t2 as d = .ok cols → ∀ c ∈ cols, ∀ x ∈ c.2, x = 0 := by
          intro as
          induction as with
          | nil =>
            intro d cols hd hp
            simp only [pickTraces, Except.ok.injEq] at hp
            rw [← hp]; exact hd
          | cons a as ih =>
            intro d cols hd hp
            simp only [pickTraces] at hp
            split at hp
            · cases hp
            · split at hp
              · cases hp
              · rename_i col hcol
                refine ih _ cols ?_ hp
                intro c hc
                have hcz := hzero col (List.mem_iff_getElem?.2 ⟨_, hcol⟩)
                unfold dictSet at hc
                split at hc
                · obtain ⟨e, he, rfl⟩ := List.mem_map.1 hc
                  split
                  · exact hcz
                  · exact hd e he
                · rcases List.mem_append.1 hc with hc | hc
                  · exact hd c hc
                  · rw [List.mem_singleton] at hc
                    rw [hc]; exact hcz
        split at h
        · cases h
        · rename_i cols hcols
          rw [Except.ok.injEq] at h
          subst h
          intro f hf'
          rw [List.mem_singleton] at hf'
          subst hf'
          exact hpick _ _ _ (by simp) hcols

/-! ### Two columns -/

theorem markTwo_first (index : List Int) (hs : index.Pairwise (fun a b => a ≤ b)) (e : Int × List Rat) (he : e.1 ∈ index)
    (rest : List (Int × List Rat)) : markTwo index (e :: rest) = .error .valueError := by
  cases index with
  | nil => simp at he
  | cons a l =>
    have hlast : (a :: l).getLast? = some ((a :: l).getLast (by simp)) := List.getLast?_eq_some_getLast (by simp)
    unfold markTwo
    rw [hlast]
    dsimp only [List.head?_cons]
    rw [if_neg, if_neg]
    · have hle : e.1 ≤ (a :: l).getLast (by simp) := by
        obtain ⟨init, hinit⟩ : ∃ init, a :: l = init ++ [(a :: l).getLast (by simp)] :=
          ⟨(a :: l).dropLast, (List.dropLast_append_getLast (by simp)).symm⟩
        generalize (a :: l).getLast (by simp) = x at hinit ⊢
        rw [hinit] at he hs
        rcases List.mem_append.1 he with he | he
        · exact (List.pairwise_append.1 hs).2.2 _ he x (by simp)
        · rw [List.mem_singleton.1 he]
      omega
    · have : a ≤ e.1 := by
        rcases List.mem_cons.1 he with he | he
        · omega
        · exact (List.pairwise_cons.1 hs).1 _ he
      omega

/-- C84. Training with mains of two columns, active and reactive power, never succeeds, although the class is described as one- or
two-dimensional: whatever `MeanShift` does. -/
theorem C84_two_columns (prm : HartParams) (threshold noise : Rat) (meanShift : List Rat → Except Err (List Rat))
    (main : List PowerRow) (hs : main.Pairwise (fun a b => a.1 ≤ b.1)) :
    ∃ e, hartFitTwo prm threshold noise meanShift main = .error e := by
  unfold hartFitTwo
  cases hf : findSteadyStates 2 threshold noise main with
  | error e => exact ⟨e, rfl⟩
  | ok r =>
    obtain ⟨st, tr⟩ := r
    dsimp only
    have hmem := (C48_reported_partial 2 threshold noise main st tr hs hf).2.2.2
    cases tr with
    | nil => exact ⟨_, rfl⟩
    | cons e rest =>
      rw [if_neg (by simp)]
      cases meanShift _ with
      | error e' => exact ⟨e', rfl⟩
      | ok cs =>
        dsimp only
        obtain ⟨⟨r, hr, hre⟩, -⟩ := hmem e (by simp)
        refine ⟨.valueError, markTwo_first _ ?_ e (List.mem_map.2 ⟨r, hr, hre⟩) rest⟩
        exact List.pairwise_map.2 hs

/-- When steps are found and the levels are computed, it is the comparison with the levels that fails. -/
theorem C84_two_columns_compare (prm : HartParams) (threshold noise : Rat) (meanShift : List Rat → Except Err (List Rat))
    (main : List PowerRow) (hs : main.Pairwise (fun a b => a.1 ≤ b.1)) (st tr : List (Int × List Rat)) (cs : List Rat)
    (hf : findSteadyStates 2 threshold noise main = .ok (st, tr)) (hne : tr ≠ []) (hm : ∀ l, meanShift l = .ok cs) :
    hartFitTwo prm threshold noise meanShift main = .error .valueError := by
  unfold hartFitTwo
  rw [hf]
  dsimp only
  rw [if_neg hne, hm]
  dsimp only
  have hmem := (C48_reported_partial 2 threshold noise main st tr hs hf).2.2.2
  cases tr with
  | nil => exact absurd rfl hne
  | cons e rest =>
    obtain ⟨⟨r, hr, hre⟩, -⟩ := hmem e (by simp)
    exact markTwo_first _ (List.pairwise_map.2 hs) e (List.mem_map.2 ⟨r, hr, hre⟩) rest

example : hartFitTwo ⟨20, 100, 35 / 1000, 1000⟩ 15 70 (fun _ => .ok [100])
    [(0, [0, 0]), (1, [0, 0]), (2, [100, 20]), (3, [100, 20]), (4, [0, 0]), (5, [0, 0])] = .error .valueError := by decide +kernel

end Nilmtk
