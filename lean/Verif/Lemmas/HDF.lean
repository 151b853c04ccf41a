import Verif.Spec.HDF
import Verif.Lemmas.TimeFrame
import Mathlib.Tactic.Ring
import Mathlib.Tactic.Linarith
/-! Lemmas about the HDF chunk loop. -/
namespace Nilmtk
open TF

/-- The time of row `j`. -/
def tm {α : Type} (table : List (Row α)) (j : Nat) : Int := ((table[j]?).map Prod.fst).getD 0

theorem tm_of_get {α : Type} {table : List (Row α)} {j : Nat} {r : Row α} (h : table[j]? = some r) :
    tm table j = r.1 := by simp [tm, h]

theorem tm_lt {α : Type} {table : List (Row α)} (h : Increasing table) {i j : Nat} (hij : i < j)
    (hj : j < table.length) : tm table i < tm table j := by
  have := List.pairwise_iff_getElem.1 h i j (by omega) hj hij
  simpa [tm, List.getElem?_eq_getElem hj, List.getElem?_eq_getElem (show i < table.length by omega)] using this

theorem tm_le {α : Type} {table : List (Row α)} (h : Increasing table) {i j : Nat} (hij : i ≤ j)
    (hj : j < table.length) : tm table i ≤ tm table j := by
  rcases Nat.lt_or_eq_of_le hij with h1 | rfl
  · exact Int.le_of_lt (tm_lt h h1 hj)
  · exact Int.le_refl _

theorem select_head {α : Type} (table : List (Row α)) {s e : Nat} (h : s < e) :
    (selectRows table s e).head? = table[s]? := by
  simp [selectRows, List.head?_take, List.head?_drop]; omega

theorem select_last {α : Type} (table : List (Row α)) {s e : Nat} (h : s < e) (hs : s < table.length) :
    (selectRows table s e).getLast? = table[min e table.length - 1]? := by
  rw [selectRows, List.getLast?_eq_getElem?, List.getElem?_take, List.getElem?_drop]
  simp only [List.length_take, List.length_drop]
  rw [if_pos (by omega)]
  congr 1; omega

theorem select_length {α : Type} (table : List (Row α)) (s e : Nat) :
    (selectRows table s e).length = min e table.length - s := by
  simp [selectRows]; omega

theorem get_some {α : Type} {table : List (Row α)} {j : Nat} (h : j < table.length) :
    ∃ r, table[j]? = some r ∧ tm table j = r.1 :=
  ⟨table[j], List.getElem?_eq_getElem h, by simp [tm, List.getElem?_eq_getElem h]⟩

theorem more_iff (s0 stop cs i : Nat) (hcs : 0 < cs) :
    i + 1 < nChunks s0 stop cs ↔ s0 + i * cs + cs < stop := by
  unfold nChunks
  rw [Nat.lt_iff_add_one_le, Nat.le_div_iff_mul_le hcs]
  have : (i + 1 + 1) * cs = i * cs + cs + cs := by ring
  rw [this]; omega

theorem le_nChunks (s0 stop cs i : Nat) (hcs : 0 < cs) :
    i < nChunks s0 stop cs ↔ s0 + i * cs < stop := by
  unfold nChunks
  rw [Nat.lt_iff_add_one_le, Nat.le_div_iff_mul_le hcs]
  have : (i + 1) * cs = i * cs + cs := by ring
  rw [this]; omega

/-- The timeframe of a chunk, in closed form. -/
theorem timeframeForChunk_eq (more : Bool) (i : Nat) (w : TF) (index : List Int) (a b : Int)
    (ha : index.head? = some a) (hb : index.getLast? = some b) :
    timeframeForChunk more i w index =
      TF.ctor (some (if i = 0 then w.start.getD a else a)) (some (if more then b else w.stop.getD b)) := by
  unfold timeframeForChunk
  generalize w.start = x; generalize w.stop = y
  rw [ha, hb]
  cases more <;> by_cases hi : i = 0 <;> cases x <;> cases y <;> simp [hi, Nat.pos_iff_ne_zero]

theorem chunkLoop_unfold {α : Type} (table : List (Row α)) (w : TF) (nLook : Int) (cs stop n : Nat)
    (hcs : 0 < cs) (i s : Nat) (h : s < stop) (hs : s < table.length) :
    chunkLoop table w nLook cs stop n hcs i s =
      match TF.ctor (some (if i = 0 then w.start.getD (tm table s) else tm table s))
        (some (if decide (i + 1 < n) then tm table (min (min (s + cs) stop + 1) table.length - 1)
          else w.stop.getD (tm table (min (min (s + cs) stop + 1) table.length - 1)))) with
      | .error e => Gen.raise e
      | .ok tf => Gen.cons ⟨selectRows table s (min (s + cs) stop + 1), tf,
          lookAhead table (selectRows table s (min (s + cs) stop + 1)) (min (s + cs) stop + 1) nLook⟩
          (chunkLoop table w nLook cs stop n hcs (i + 1) (s + cs)) := by
  rw [chunkLoop, dif_pos h]
  have h1 : (if s + cs > stop then stop else s + cs) = min (s + cs) stop := by
    split <;> omega
  simp only [h1]
  have h2 : s < min (s + cs) stop + 1 := by omega
  obtain ⟨r, hr, hr'⟩ := get_some hs
  obtain ⟨q, hq, hq'⟩ := get_some (table := table) (j := min (min (s + cs) stop + 1) table.length - 1) (by omega)
  rw [timeframeForChunk_eq (a := tm table s) (b := tm table (min (min (s + cs) stop + 1) table.length - 1))]
  · rfl
  · rw [List.head?_map, select_head _ h2, hr, hr']; rfl
  · rw [List.getLast?_map, select_last _ h2 hs, hq, hq']; rfl

theorem chunkLoop_done {α : Type} (table : List (Row α)) (w : TF) (nLook : Int) (cs stop n : Nat)
    (hcs : 0 < cs) (i s : Nat) (h : stop ≤ s) :
    chunkLoop table w nLook cs stop n hcs i s = Gen.done := by
  rw [chunkLoop, dif_neg (by omega)]

theorem lookAhead_spec {α : Type} (table : List (Row α)) (s e : Nat) (nLook : Int) (h : s < e)
    (hs : s < table.length) (hn : 0 < nLook) (tf : TF) :
    LooksAhead table nLook.toNat ⟨selectRows table s e, tf, lookAhead table (selectRows table s e) e nLook⟩ := by
  refine ⟨table.take s, table.drop e, ?_, ?_⟩
  · simp only [selectRows]
    have h1 : table.drop e = (table.drop s).drop (e - s) := by
      rw [List.drop_drop]; congr 1; omega
    rw [h1, List.append_assoc, List.take_append_drop, List.take_append_drop]
  · have : (selectRows table s e).length > 0 := by rw [select_length]; omega
    simp only [lookAhead, if_pos hn, if_pos this]
    simp only [selectRows]
    congr 2; omega

theorem tail_select {α : Type} (table : List (Row α)) (s e : Nat) (hs : s < table.length) (h : s < e) :
    selectRows table s e = selectRows table s (s + 1) ++ (selectRows table s e).tail ∧
    (selectRows table s e).tail = selectRows table (s + 1) e := by
  have h3 : e - s = (e - (s + 1)) + 1 := by omega
  have h4 : table.drop s = table[s] :: table.drop (s + 1) := by rw [List.drop_eq_getElem_cons hs]
  have h5 : s + 1 - s = 0 + 1 := by omega
  simp only [selectRows]
  rw [h3, h5, h4]
  simp only [List.take_succ_cons, List.take_zero, List.tail_cons, List.cons_append, List.nil_append, and_self]

theorem select_append {α : Type} (table : List (Row α)) (s m e : Nat) (h1 : s ≤ m) (h2 : m ≤ e) :
    selectRows table s m ++ selectRows table m e = selectRows table s e := by
  simp only [selectRows]
  have h3 : table.drop m = (table.drop s).drop (m - s) := by
    rw [List.drop_drop]; congr 1; omega
  rw [h3]
  have h4 : e - s = (m - s) + (e - m) := by omega
  rw [h4, List.take_add]

structure LoopSpec {α : Type} (table : List (Row α)) (w : TF) (nLook : Int) (cs stop n : Nat)
    (i s : Nat) (g : Gen (Chunk α)) : Prop where
  joined : joinOverlapping (g.out.map Chunk.rows) = selectRows table s (stop + 1)
  nonempty : g.out ≠ []
  size : ∀ c ∈ g.out, 2 ≤ c.rows.length ∧ c.rows.length ≤ cs + 1
  head : ∀ c, g.out.head? = some c → c.rows.head? = table[s]?
  share : Consecutive SharesRow g.out
  tiles : Tiles (if i = 0 then w.start.getD (tm table s) else tm table s)
    (w.stop.getD (tm table (min stop (table.length - 1)))) (g.out.map Chunk.timeframe)
  look : 0 < nLook → ∀ c ∈ g.out, LooksAhead table nLook.toNat c
  noLook : nLook ≤ 0 → ∀ c ∈ g.out, c.look = none
  err : g.err = if stop = table.length ∧ cs ∣ table.length - 1 - s then some .valueError else none
  count : g.err = none → g.out.length + i = n

theorem halfOpen_mk {s e : Int} : HalfOpen (mk' (some s) (some e)) s e := ⟨rfl, rfl, rfl, rfl⟩

theorem consecutive_cons {β : Type} {R : β → β → Prop} (a : β) (l : List β) (h : Consecutive R l)
    (hh : ∀ b, l.head? = some b → R a b) : Consecutive R (a :: l) := by
  cases l with
  | nil => exact Consecutive.single a
  | cons b l => exact Consecutive.cons a b l (hh b rfl) h

theorem joinOverlapping_cons {β : Type} (c : List β) (cs : List (List β)) (h : cs ≠ []) :
    joinOverlapping (c :: cs) = c ++ (joinOverlapping cs).tail ∨ (∃ d ds, cs = d :: ds ∧ d = []) := by
  cases cs with
  | nil => exact absurd rfl h
  | cons d ds =>
    cases d with
    | nil => right; exact ⟨[], ds, rfl, rfl⟩
    | cons x xs => left; simp [joinOverlapping]

theorem chunkLoop_spec {α : Type} (table : List (Row α)) (w : TF) (nLook : Int) (cs stop s0 : Nat)
    (hcs : 0 < cs) (hinc : Increasing table)
    (hcase : stop < table.length ∨ (stop = table.length ∧ w.start = none ∧ w.stop = none))
    (hlo : ∀ a, w.start = some a → a ≤ tm table s0)
    (hhi : ∀ b, w.stop = some b → stop < table.length → tm table stop ≤ b)
    (i s : Nat) (hsi : s = s0 + i * cs) (hs : s < stop) (hs1 : s + 1 < table.length) :
    LoopSpec table w nLook cs stop (nChunks s0 stop cs) i s
      (chunkLoop table w nLook cs stop (nChunks s0 stop cs) hcs i s) := by
  induction hk : stop - s using Nat.strong_induction_on generalizing i s with
  | _ k ih =>
    have hmore : i + 1 < nChunks s0 stop cs ↔ s + cs < stop := by
      rw [more_iff _ _ _ _ hcs, hsi]
    have hlo' : ∀ a, w.start = some a → a ≤ tm table s := by
      intro a ha
      exact Int.le_trans (hlo a ha) (tm_le hinc (by omega) (by omega))
    rw [chunkLoop_unfold _ _ _ _ _ _ _ _ _ hs (by omega)]
    -- bounds of this chunk's timeframe
    have hA : ∀ x, (if i = 0 then w.start.getD (tm table s) else tm table s) = x → x ≤ tm table s := by
      intro x hx; subst hx
      split
      · cases h : w.start with
        | none => simp
        | some a => simpa using hlo' a h
      · exact Int.le_refl _
    generalize hx : (if i = 0 then w.start.getD (tm table s) else tm table s) = x
    have hxs := hA x hx
    by_cases hm : s + cs < stop
    · -- more chunks follow
      simp only [hmore, hm, decide_true, if_true]
      have e1 : min (s + cs) stop = s + cs := by omega
      have e2 : min (s + cs + 1) table.length - 1 = s + cs := by
        rcases hcase with h | h <;> omega
      simp only [e1, e2]
      have hxy : x < tm table (s + cs) := by
        have := tm_lt hinc (show s < s + cs by omega) (by rcases hcase with h | h <;> omega)
        omega
      rw [ctor_ok (by intro a b ha hb; cases ha; cases hb; exact hxy)]
      simp only
      have hlt : s + cs < table.length := by rcases hcase with h | h <;> omega
      obtain ⟨r, hr, _⟩ := get_some hlt
      have hself : SharesRow ⟨selectRows table s (s + cs + 1), mk' (some x) (some (tm table (s + cs))),
          lookAhead table (selectRows table s (s + cs + 1)) (s + cs + 1) nLook⟩ ⟨selectRows table (s+cs) (s + cs + 1), mk' none none, none⟩ := by
        refine ⟨r, ?_, ?_⟩
        · simp only [select_last _ (show s < s + cs + 1 by omega) (show s < table.length by omega), e2, hr]
        · simp only [select_head _ (show s + cs < s + cs + 1 by omega), hr]
      have hlen : (selectRows table s (s + cs + 1)).length = cs + 1 := by
        rw [select_length]; omega
      by_cases hlast : s + cs + 1 < table.length
      · have IH := ih (stop - (s + cs)) (by omega) (i + 1) (s + cs) (by rw [hsi]; ring) hm hlast rfl
        generalize hg : chunkLoop table w nLook cs stop (nChunks s0 stop cs) hcs (i + 1) (s + cs) = g at IH
        obtain ⟨j1, j2, j3, j4, j5, j6, j7, j8, j9, j10⟩ := IH
        refine ⟨?_, by simp [Gen.cons], ?_, ?_, ?_, ?_, ?_, ?_, ?_, ?_⟩
        · -- joined
          simp only [Gen.cons, List.map_cons]
          rcases joinOverlapping_cons (selectRows table s (s + cs + 1)) (g.out.map Chunk.rows)
              (by simpa using j2) with h | ⟨d, ds, h, hd⟩
          · rw [h, j1, (tail_select _ _ _ hlt (by omega)).2, select_append _ _ _ _ (by omega) (by omega)]
          · exfalso
            cases hgo : g.out with
            | nil => exact j2 hgo
            | cons c rest =>
              rw [hgo] at h
              simp only [List.map_cons, List.cons.injEq] at h
              have := (j3 c (by rw [hgo]; exact List.mem_cons_self)).1
              rw [h.1, hd] at this; simp at this
        · intro c hc
          rcases List.mem_cons.1 hc with rfl | hc
          · simp only [hlen]; omega
          · exact j3 c hc
        · intro c hc
          simp only [Gen.cons, List.head?_cons, Option.some.injEq] at hc
          subst hc
          exact select_head _ (by omega)
        · refine consecutive_cons _ _ j5 ?_
          intro b hb
          obtain ⟨r', q1, q2⟩ := hself
          refine ⟨r', q1, ?_⟩
          rw [j4 b hb, ← q2]
          exact (select_head table (show s + cs < s + cs + 1 by omega)).symm
        · simp only [Gen.cons, List.map_cons]
          rw [if_neg (by omega)] at j6
          rw [hx]; exact Tiles.cons _ _ _ _ _ halfOpen_mk hxy j6
        · intro hn c hc
          rcases List.mem_cons.1 hc with rfl | hc
          · exact lookAhead_spec _ _ _ _ (by omega) (by omega) hn _
          · exact j7 hn c hc
        · intro hn c hc
          rcases List.mem_cons.1 hc with rfl | hc
          · simp [lookAhead, show ¬ nLook > 0 by omega]
          · exact j8 hn c hc
        · simp only [Gen.cons]
          rw [j9]
          have : (cs ∣ table.length - 1 - (s + cs)) ↔ (cs ∣ table.length - 1 - s) := by
            have e3 : table.length - 1 - s = (table.length - 1 - (s + cs)) + cs := by omega
            rw [e3]; exact (Nat.dvd_add_self_right).symm
          simp only [this]
        · intro he
          have := j10 he
          simp only [Gen.cons, List.length_cons]; omega
      · -- the next chunk would hold only the last row
        have hst : stop = table.length := by rcases hcase with h | h <;> omega
        have hw : w.start = none ∧ w.stop = none := by
          rcases hcase with h | h
          · omega
          · exact h.2
        have e3 : s + cs = table.length - 1 := by omega
        have hnext : chunkLoop table w nLook cs stop (nChunks s0 stop cs) hcs (i + 1) (s + cs) =
            Gen.raise .valueError := by
          rw [chunkLoop_unfold _ _ _ _ _ _ _ _ _ hm (by omega)]
          have e4 : min (min (s + cs + cs) stop + 1) table.length - 1 = s + cs := by omega
          rw [e4, hw.2, if_neg (by omega)]
          have : ∀ b : Bool, (if b then tm table (s + cs) else (none : Option Int).getD (tm table (s + cs))) = tm table (s + cs) := by
            intro b; cases b <;> rfl
          rw [this, ctor_error (Int.le_refl _)]
        rw [hnext]
        refine ⟨?_, by simp [Gen.cons], ?_, ?_, ?_, ?_, ?_, ?_, ?_, ?_⟩
        · simp only [Gen.cons, Gen.raise, List.map_cons, List.map_nil, joinOverlapping, List.flatten_nil, List.append_nil]
          simp only [selectRows]
          rw [List.take_of_length_le (by simp; omega), List.take_of_length_le (by simp; omega)]
        · intro c hc
          simp only [Gen.cons, Gen.raise, List.mem_cons, List.not_mem_nil, or_false] at hc
          subst hc; simp only [hlen]; omega
        · intro c hc
          simp only [Gen.cons, List.head?_cons, Option.some.injEq] at hc
          subst hc
          exact select_head _ (by omega)
        · exact Consecutive.single _
        · simp only [Gen.cons, Gen.raise, List.map_cons, List.map_nil]
          have : w.stop.getD (tm table (min stop (table.length - 1))) = tm table (s + cs) := by
            rw [hw.2]; simp only [Option.getD_none]; congr 1; omega
          rw [this]
          rw [hx]; exact Tiles.cons _ _ _ _ _ halfOpen_mk hxy (Tiles.nil _)
        · intro hn c hc
          simp only [Gen.cons, Gen.raise, List.mem_cons, List.not_mem_nil, or_false] at hc
          subst hc; exact lookAhead_spec _ _ _ _ (by omega) (by omega) hn _
        · intro hn c hc
          simp only [Gen.cons, Gen.raise, List.mem_cons, List.not_mem_nil, or_false] at hc
          subst hc; simp [lookAhead, show ¬ nLook > 0 by omega]
        · have : cs ∣ table.length - 1 - s := by
            have : table.length - 1 - s = cs := by omega
            rw [this]
          simp [Gen.cons, Gen.raise, hst, this]
        · intro he; simp [Gen.cons, Gen.raise] at he
    · -- last chunk
      have hmf : decide (i + 1 < nChunks s0 stop cs) = false := by
        rw [decide_eq_false_iff_not, hmore]; exact hm
      simp only [hmf, Bool.false_eq_true, if_false]
      have e1 : min (s + cs) stop = stop := by omega
      simp only [e1]
      have e2 : min (stop + 1) table.length - 1 = min stop (table.length - 1) := by omega
      rw [e2, chunkLoop_done _ _ _ _ _ _ _ _ _ (show stop ≤ s + cs by omega)]
      have hxy : x < w.stop.getD (tm table (min stop (table.length - 1))) := by
        have h1 : tm table s < tm table (min stop (table.length - 1)) :=
          tm_lt hinc (by omega) (by omega)
        cases h : w.stop with
        | none => simp only [Option.getD_none]; omega
        | some b =>
          rcases hcase with hc | hc
          · have := hhi b h hc
            have e3 : min stop (table.length - 1) = stop := by omega
            rw [e3] at h1
            simp only [Option.getD_some]; omega
          · rw [hc.2.2] at h; cases h
      rw [ctor_ok (by intro a b ha hb; cases ha; cases hb; exact hxy)]
      simp only [Gen.cons, Gen.done]
      refine ⟨?_, by simp, ?_, ?_, Consecutive.single _, ?_, ?_, ?_, ?_, ?_⟩
      · simp [joinOverlapping]
      · intro c hc
        simp only [List.mem_cons, List.not_mem_nil, or_false] at hc
        subst hc; simp only [select_length]; omega
      · intro c hc
        simp only [List.head?_cons, Option.some.injEq] at hc
        subst hc
        exact select_head _ (by omega)
      · simp only [List.map_cons, List.map_nil, hx]
        exact Tiles.cons _ _ _ _ _ halfOpen_mk hxy (Tiles.nil _)
      · intro hn c hc
        simp only [List.mem_cons, List.not_mem_nil, or_false] at hc
        subst hc; exact lookAhead_spec _ _ _ _ (by omega) (by omega) hn _
      · intro hn c hc
        simp only [List.mem_cons, List.not_mem_nil, or_false] at hc
        subst hc; simp [lookAhead, show ¬ nLook > 0 by omega]
      · rw [if_neg]
        rintro ⟨h1, h2⟩
        have := Nat.le_of_dvd (by omega) h2
        omega
      · intro _
        have h1 := (le_nChunks s0 stop cs i hcs).2 (by omega)
        have h2 : ¬ (i + 1 < nChunks s0 stop cs) := by rw [hmore]; exact hm
        simp only [List.length_cons, List.length_nil]; omega

end Nilmtk
