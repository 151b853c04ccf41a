import Verif.Lemmas.GoodSections
import Verif.Props.Results
/-!
Lemmas about `GoodSectionsResults.combined` on the rows of consecutive chunks.
-/
namespace Nilmtk
open TF

/-- All sections of the rows, in order. -/
def flat (rows : List (RRow (List TF))) : List TF := (rows.map RRow.val).flatten

theorem flat_append (a b : List (RRow (List TF))) : flat (a ++ b) = flat a ++ flat b := by
  simp [flat]

theorem flat_putLast (acc : List (RRow (List TF))) (f : TF) (h : flat acc ≠ []) :
    flat (putLast acc f) = (flat acc).dropLast ++ [f] := by
  induction acc with
  | nil => exact absurd rfl h
  | cons r rows ih =>
    rw [putLast]
    by_cases hr : flat rows = []
    · have hr' : (rows.map RRow.val).flatten = [] := hr
      rw [if_pos hr']
      have e : flat (r :: rows) = r.val := by
        simp only [flat, List.map_cons, List.flatten_cons]; rw [hr', List.append_nil]
      rw [e]
      simp only [flat, List.map_cons, List.flatten_cons, hr', List.append_nil, setLast]
    · have hr' : ¬ (rows.map RRow.val).flatten = [] := hr
      rw [if_neg hr']
      have e1 : flat (r :: putLast rows f) = r.val ++ flat (putLast rows f) := by simp [flat]
      have e2 : flat (r :: rows) = r.val ++ flat rows := by simp [flat]
      rw [e1, e2, ih hr, List.dropLast_append_of_ne_nil hr, List.append_assoc]

theorem toTF_start (p : Option Int × Option Int) : (toTF p).start = p.1 := rfl
theorem toTF_stop (p : Option Int × Option Int) : (toTF p).stop = p.2 := rfl

theorem setEnd_toTF (p : Option Int × Option Int) (e : Option Int)
    (h : ∀ a b, p.1 = some a → e = some b → a < b) : (toTF p).setEnd e = .ok (toTF (p.1, e)) := by
  obtain ⟨s, t⟩ := p
  cases e with
  | none => rfl
  | some b =>
    cases s with
    | none => rfl
    | some a =>
      have := h a b rfl rfl
      have h1 : (toTF (some a, t)).start = some a := rfl
      simp only [TF.setEnd, h1]
      rw [if_neg (by omega)]
      rfl

/-- A results row, present only if there are sections. -/
def rowOf (lo hi : Int) (ps : List (Option Int × Option Int)) : List (RRow (List TF)) :=
  if ps = [] then [] else [⟨lo, hi, ps.map toTF⟩]

/-- The results rows of consecutive chunks of the readings `idx`, overlapping by one reading: `prev` is the
carried flag, `lo` the start of the first chunk's timeframe, `hi` the end of the last one, `next` whether a
reading follows within `msp`. -/
inductive Seg (msp : Int) : Bool → Int → List Int → Bool → Int → List (RRow (List TF)) → Prop where
  | last (prev next : Bool) (lo hi x w : Int) (l : List Int) : (prev = true → w - x ≤ msp) →
      Seg msp prev lo (x :: w :: l) next hi (rowOf lo hi (pairs msp prev next (x :: w :: l)))
  | cons (prev next : Bool) (lo mid hi x w y z : Int) (l B : List Int) (rows : List (RRow (List TF))) :
      (prev = true → w - x ≤ msp) → (x :: w :: l).getLast? = some y →
      Seg msp (decide (z - y ≤ msp)) mid (y :: z :: B) next hi rows →
      Seg msp prev lo (x :: w :: (l ++ z :: B)) next hi
        (rowOf lo mid (pairs msp prev (decide (z - y ≤ msp)) (x :: w :: l)) ++ rows)

theorem joinPairs_getLast (mid : Bool) (P ps : List (Option Int × Option Int)) (q p : Option Int × Option Int)
    (hq : ps.getLast? = some q) (h : (joinPairs mid P ps).getLast? = some p) :
    p.2 = q.2 ∧ (p.1 = q.1 ∨ ∃ r, P.getLast? = some r ∧ p.1 = r.1) := by
  cases ps with
  | nil => simp at hq
  | cons a ps =>
    have hdef : ∀ X : List (Option Int × Option Int), (X ++ a :: ps).getLast? = some q := by
      intro X; rw [List.getLast?_append, hq]; simp
    cases mid with
    | false =>
      simp only [joinPairs, Bool.false_eq_true, if_false, hdef P, Option.some.injEq] at h
      subst h; exact ⟨rfl, Or.inl rfl⟩
    | true =>
      cases hP : P.getLast? with
      | none =>
        simp only [joinPairs, if_true, hP, hdef P, Option.some.injEq] at h
        subst h; exact ⟨rfl, Or.inl rfl⟩
      | some r =>
        simp only [joinPairs, if_true, hP] at h
        rw [List.getLast?_append] at h
        cases ps with
        | nil =>
          simp only [List.getLast?_singleton, Option.some_or, Option.some.injEq] at h hq
          subst h; subst hq
          exact ⟨rfl, Or.inr ⟨r, rfl, rfl⟩⟩
        | cons b ps =>
          rw [List.getLast?_cons_cons] at h hq
          rw [hq] at h
          simp only [Option.some_or, Option.some.injEq] at h
          subst h; exact ⟨rfl, Or.inl rfl⟩

theorem joinPairs_assoc (m1 m2 : Bool) (P Q R : List (Option Int × Option Int))
    (h : Q ≠ [] ∨ (m1 = false ∧ m2 = false)) :
    joinPairs m1 P (joinPairs m2 Q R) = joinPairs m2 (joinPairs m1 P Q) R := by
  rcases h with h | ⟨rfl, rfl⟩
  · cases Q with
    | nil => exact absurd rfl h
    | cons q Q =>
      cases m1 with
      | false =>
        cases m2 with
        | false => simp [joinPairs]
        | true =>
          simp only [joinPairs, if_true, Bool.false_eq_true, if_false]
          have : (P ++ q :: Q).getLast? = (q :: Q).getLast? := by
            rw [List.getLast?_append]
            cases hq : (q :: Q).getLast? with
            | none => simp at hq
            | some z => simp
          rw [this]
          cases hq : (q :: Q).getLast? with
          | none => simp at hq
          | some z =>
            cases R with
            | nil => simp
            | cons r R => simp [List.dropLast_append_of_ne_nil]
      | true =>
        cases hP : P.getLast? with
        | none =>
          rw [List.getLast?_eq_none_iff] at hP; subst hP
          have e : ∀ X, joinPairs true [] X = X := by intro X; cases X <;> rfl
          rw [e, e]
        | some p =>
          have e1 : ∀ a X, joinPairs true P (a :: X) = P.dropLast ++ (p.1, a.2) :: X := by
            intro a X; simp [joinPairs, hP]
          cases m2 with
          | false =>
            have : joinPairs false (q :: Q) R = q :: (Q ++ R) := by simp [joinPairs]
            rw [this, e1, e1]; simp [joinPairs]
          | true =>
            rw [e1]
            cases Q with
            | nil =>
              cases R with
              | nil => simp [joinPairs, hP]
              | cons r R =>
                have : joinPairs true [q] (r :: R) = (q.1, r.2) :: R := by simp [joinPairs]
                rw [this, e1]
                simp [joinPairs]
            | cons c Q =>
              rw [joinPairs_cons true q (c :: Q) R (Or.inl (by simp)), e1]
              have : ∀ X : List (Option Int × Option Int), X.length = X.length := fun _ => rfl
              have hX : joinPairs true (P.dropLast ++ (p.1, q.2) :: c :: Q) R =
                  P.dropLast ++ (p.1, q.2) :: joinPairs true (c :: Q) R := by
                generalize P.dropLast = X
                induction X with
                | nil => exact joinPairs_cons true _ _ _ (Or.inl (by simp))
                | cons a X ih =>
                  rw [List.cons_append, joinPairs_cons true _ _ _ (Or.inl (by simp)), ih]; rfl
              rw [hX]
  · simp [joinPairs]

theorem pairs_start_le (msp : Int) (prev next : Bool) (x a : Int) (l : List Int)
    (hs : (x :: l).Pairwise (· < ·)) (hl : (x :: l).getLast? = some a) :
    ∀ p ∈ pairs msp prev next (x :: l), ∀ s, p.1 = some s → s ≤ a := by
  induction l generalizing x prev with
  | nil =>
    simp only [List.getLast?_singleton, Option.some.injEq] at hl
    subst hl
    cases prev <;> cases next <;> simp [pairs]
  | cons y l ih =>
    obtain ⟨h1, h2⟩ := List.pairwise_cons.1 hs
    rw [List.getLast?_cons_cons] at hl
    have ha := h1 a (List.mem_of_getLast? hl)
    have i := fun b => ih b y h2 hl
    rw [pairs]
    split
    · cases prev
      · simp only [Bool.false_eq_true, if_false]
        obtain ⟨e, rest, hp⟩ := pairs_true_ne_nil msp next y l
        have it := i true
        rw [hp] at it ⊢
        intro p hp' s hs'
        simp only [setHead] at hp'
        rcases List.mem_cons.1 hp' with rfl | hp'
        · simp only [Option.some.injEq] at hs'; omega
        · exact it p (List.mem_cons_of_mem _ hp') s hs'
      · simp only [if_true]; exact i true
    · cases prev
      · simp only [Bool.false_eq_true, if_false]; exact i false
      · simp only [if_true]
        intro p hp s hs'
        rcases List.mem_cons.1 hp with rfl | hp
        · simp at hs'
        · exact i false p hp s hs'

/-- The state of the loop of `combined` before a row: the pairs collected so far. -/
structure LoopState (prev : Bool) (lo head : Int) (acc : List (RRow (List TF))) (pe : Option Int)
    (P : List (Option Int × Option Int)) : Prop where
  flat : flat acc = P.map toTF
  opened : prev = true → pe = some lo ∧ ∃ p, P.getLast? = some p ∧ p.2 = none ∧ ∀ s, p.1 = some s → s ≤ head
  closed : prev = false → ∀ p, P.getLast? = some p → p.2 ≠ none
  fresh : pe = none → P = []

theorem pairs_head_end (msp : Int) (next : Bool) (x w : Int) (l : List Int)
    (hs : (x :: w :: l).Pairwise (· < ·)) (hw : w - x ≤ msp) :
    ∃ e rest, pairs msp true next (x :: w :: l) = (none, e) :: rest ∧ ∀ b, e = some b → x < b := by
  obtain ⟨h1, h2⟩ := List.pairwise_cons.1 hs
  have hx := h1 w List.mem_cons_self
  rw [pairs, if_pos hw, if_pos rfl]
  obtain ⟨e, rest, hp⟩ := pairs_true_ne_nil msp next w l
  have ok := pairs_ok msp true next w l h2
  rw [hp] at ok ⊢
  refine ⟨e, rest, rfl, ?_⟩
  intro b hb
  subst hb
  cases ok with
  | contd _ _ _ a _ => omega

theorem combine_step (msp : Int) (hmsp : 0 ≤ msp) (prev nx : Bool) (lo mid x w y : Int) (l : List Int)
    (hs : (x :: w :: l).Pairwise (· < ·)) (hw : prev = true → w - x ≤ msp)
    (hy : (x :: w :: l).getLast? = some y)
    (acc : List (RRow (List TF))) (pe : Option Int) (P : List (Option Int × Option Int))
    (st : LoopState prev lo x acc pe P) (rest : List (RRow (List TF))) :
    ∃ acc' pe', combineLoop msp acc pe (rowOf lo mid (pairs msp prev nx (x :: w :: l)) ++ rest) =
        combineLoop msp acc' pe' rest ∧
      LoopState nx mid y acc' pe' (joinPairs prev P (pairs msp prev nx (x :: w :: l))) := by
  have hxy : x ≤ y := by
    have h1 := (List.pairwise_cons.1 hs).1
    rw [List.getLast?_cons_cons] at hy
    exact le_of_lt (h1 y (List.mem_of_getLast? hy))
  have hlast := pairs_last msp prev nx x (w :: l)
  have hle := pairs_start_le msp prev nx x y (w :: l) hs hy
  -- the invariant for the new pairs
  have inv : ∀ acc' pe', flat acc' = (joinPairs prev P (pairs msp prev nx (x :: w :: l))).map toTF →
      pairs msp prev nx (x :: w :: l) ≠ [] → pe' = some mid →
      LoopState nx mid y acc' pe' (joinPairs prev P (pairs msp prev nx (x :: w :: l))) := by
    intro acc' pe' hf hne hpe
    obtain ⟨q, hq⟩ : ∃ q, (pairs msp prev nx (x :: w :: l)).getLast? = some q :=
      ⟨_, List.getLast?_eq_some_getLast hne⟩
    have hj : joinPairs prev P (pairs msp prev nx (x :: w :: l)) ≠ [] := by
      cases hp : pairs msp prev nx (x :: w :: l) with
      | nil => exact absurd hp hne
      | cons a ps =>
        unfold joinPairs
        cases prev with
        | false => simp
        | true => cases P.getLast? <;> simp
    refine ⟨hf, ?_, ?_, ?_⟩
    · intro hnx
      refine ⟨hpe, _, List.getLast?_eq_some_getLast hj, ?_⟩
      obtain ⟨h1, h2⟩ := joinPairs_getLast prev P _ q _ hq (List.getLast?_eq_some_getLast hj)
      refine ⟨by rw [h1]; exact (hlast q hq).1 hnx, ?_⟩
      intro s hs'
      rcases h2 with h2 | ⟨r, hr, h2⟩
      · exact hle q (List.mem_of_getLast? hq) s (h2 ▸ hs')
      · cases hprev : prev with
        | true =>
          obtain ⟨_, p, hp, _, hp'⟩ := st.opened hprev
          rw [hp] at hr; cases hr
          have := hp' s (h2 ▸ hs')
          omega
        | false =>
          subst hprev
          have e : joinPairs false P (pairs msp false nx (x :: w :: l)) =
              P ++ pairs msp false nx (x :: w :: l) := rfl
          have hlast' : (joinPairs false P (pairs msp false nx (x :: w :: l))).getLast? = some q := by
            rw [e, List.getLast?_append, hq]; simp
          have h3 : (joinPairs false P (pairs msp false nx (x :: w :: l))).getLast hj = q := by
            have := List.getLast?_eq_some_getLast hj
            rw [hlast'] at this
            exact (Option.some.inj this).symm
          rw [h3] at hs'
          exact hle q (List.mem_of_getLast? hq) s hs'
    · intro hnx p hp
      obtain ⟨h1, _⟩ := joinPairs_getLast prev P _ q _ hq hp
      rw [h1]
      have := hlast q hq
      simp only [hnx, Bool.false_eq_true, false_iff] at this
      exact this
    · intro h; rw [hpe] at h; cases h
  by_cases hps : pairs msp prev nx (x :: w :: l) = []
  · -- no sections: no row, nothing open
    have hprev : prev = false := by
      cases prev with
      | false => rfl
      | true =>
        obtain ⟨e, r, h⟩ := pairs_true_ne_nil msp nx x (w :: l)
        rw [h] at hps; cases hps
    have hnx : nx = false := by
      cases nx with
      | false => rfl
      | true => exact absurd hps (pairs_next_ne_nil msp prev x (w :: l))
    subst hprev; subst hnx
    refine ⟨acc, pe, ?_, ?_⟩
    · rw [hps]; rfl
    · rw [hps]
      have : joinPairs false P [] = P := by simp [joinPairs]
      rw [this]
      exact ⟨st.flat, by simp, st.closed, st.fresh⟩
  · have hrow : rowOf lo mid (pairs msp prev nx (x :: w :: l)) =
        [⟨lo, mid, (pairs msp prev nx (x :: w :: l)).map toTF⟩] := by rw [rowOf, if_neg hps]
    rw [hrow, List.singleton_append]
    cases hprev : prev with
    | true =>
      subst hprev
      obtain ⟨hpe, p, hp, hp2, hp1⟩ := st.opened rfl
      obtain ⟨e, ps, hpp, he⟩ := pairs_head_end msp nx x w l hs (hw rfl)
      have hflat : flat acc ≠ [] := by
        rw [st.flat]; intro h
        rw [List.map_eq_nil_iff] at h; subst h; simp at hp
      have hlastS : lastSection acc = some (toTF p) := by
        show (flat acc).getLast? = _
        rw [st.flat, List.getLast?_map, hp]; rfl
      have hset : (toTF p).setEnd e = .ok (toTF (p.1, e)) := by
        apply setEnd_toTF
        intro a b ha hb
        have := hp1 a ha
        have := he b hb
        omega
      have hm : mergeRow msp acc lo ⟨lo, mid, (pairs msp true nx (x :: w :: l)).map toTF⟩ =
          .ok (putLast acc (toTF (p.1, e)), ⟨lo, mid, ps.map toTF⟩) := by
        rw [hpp]
        unfold mergeRow
        have hadj : (decide (lo - msp ≤ lo) && decide (lo ≤ lo)) = true := by simp [hmsp]
        simp only [hadj, if_true, List.map_cons, toTF_start, Option.isNone_none, hlastS, toTF_stop, hp2,
          Option.isSome_none, Bool.false_eq_true, if_false, List.head?_cons, Option.bind_some, hset,
          List.tail_cons]
      refine ⟨putLast acc (toTF (p.1, e)) ++ [⟨lo, mid, ps.map toTF⟩], some mid, ?_, ?_⟩
      · rw [hpe, combineLoop, hm]
      · apply inv _ _ _ hps rfl
        rw [flat_append, flat_putLast _ _ hflat, st.flat, hpp]
        have : joinPairs true P ((none, e) :: ps) = P.dropLast ++ (p.1, e) :: ps := by
          simp [joinPairs, hp]
        rw [this, List.map_append, List.map_cons, ← List.map_dropLast]
        simp [flat]
    | false =>
      subst hprev
      have hj : joinPairs false P (pairs msp false nx (x :: w :: l)) =
          P ++ pairs msp false nx (x :: w :: l) := rfl
      refine ⟨acc ++ [⟨lo, mid, (pairs msp false nx (x :: w :: l)).map toTF⟩], some mid, ?_, ?_⟩
      · cases hpe : pe with
        | none => rw [combineLoop]
        | some e =>
          have hm : mergeRow msp acc e ⟨lo, mid, (pairs msp false nx (x :: w :: l)).map toTF⟩ =
              .ok (acc, ⟨lo, mid, (pairs msp false nx (x :: w :: l)).map toTF⟩) := by
            cases hq : pairs msp false nx (x :: w :: l) with
            | nil => exact absurd hq hps
            | cons q qs =>
              have hq1 : q.1 ≠ none := by
                have := pairs_head msp false nx x (w :: l) q qs hq
                simpa using this
              obtain ⟨s, hs'⟩ := Option.ne_none_iff_exists'.1 hq1
              have hl' : ∀ f, lastSection acc = some f → f.stop.isNone = false := by
                intro f hf
                have hf' : (flat acc).getLast? = some f := hf
                rw [st.flat, List.getLast?_map] at hf'
                cases hP : P.getLast? with
                | none => rw [hP] at hf'; cases hf'
                | some p =>
                  rw [hP] at hf'
                  simp only [Option.map_some, Option.some.injEq] at hf'
                  subst hf'
                  have := st.closed rfl p hP
                  rw [toTF_stop]
                  cases hp2 : p.2 with
                  | none => exact absurd hp2 this
                  | some _ => rfl
              have hfo : (if (decide (e - msp ≤ lo) && decide (lo ≤ e)) = true then
                  (Except.ok false : Except Err Bool) else .ok false) = .ok false := by split <;> rfl
              unfold mergeRow
              simp only [List.map_cons, toTF_start, hs', Option.isNone_some, hfo, Bool.false_eq_true, if_false]
              cases hla : lastSection acc with
              | none => rfl
              | some f =>
                simp only [hl' f hla, Bool.false_eq_true, if_false]
          rw [combineLoop, hm]
      · apply inv _ _ _ hps rfl
        rw [flat_append, st.flat, hj, List.map_append]
        simp [flat]

theorem combineLoop_seg (msp : Int) (hmsp : 0 ≤ msp) {prev next : Bool} {lo hi : Int} {idx : List Int}
    {rows : List (RRow (List TF))} (h : Seg msp prev lo idx next hi rows) (hs : idx.Pairwise (· < ·))
    (last : Int) (hl : idx.getLast? = some last)
    (head : Int) (hh : idx.head? = some head)
    (acc : List (RRow (List TF))) (pe : Option Int) (P : List (Option Int × Option Int))
    (st : LoopState prev lo head acc pe P) :
    ∃ acc' pe', combineLoop msp acc pe rows = .ok (acc', pe') ∧
      LoopState next hi last acc' pe' (joinPairs prev P (pairs msp prev next idx)) := by
  induction h generalizing acc pe P head with
  | last prev next lo hi x w l hw =>
    simp only [List.head?_cons, Option.some.injEq] at hh
    subst hh
    obtain ⟨acc', pe', h1, h2⟩ := combine_step msp hmsp prev next lo hi x w last l hs hw hl acc pe P st []
    refine ⟨acc', pe', ?_, h2⟩
    rw [List.append_nil] at h1
    rw [h1, combineLoop]
  | cons prev next lo mid hi x w y z l B rows hw hy hseg ih =>
    simp only [List.head?_cons, Option.some.injEq] at hh
    subst hh
    have hA : ∃ A, x :: w :: l = A ++ [y] := by
      obtain ⟨A, hA⟩ := List.getLast?_eq_some_iff.1 hy
      exact ⟨A, hA⟩
    obtain ⟨A, hA⟩ := hA
    have hidx : x :: w :: (l ++ z :: B) = A ++ y :: z :: B := by
      have : x :: w :: (l ++ z :: B) = (x :: w :: l) ++ z :: B := rfl
      rw [this, hA]; simp
    have hs1 : (x :: w :: l).Pairwise (· < ·) := by
      have : x :: w :: (l ++ z :: B) = (x :: w :: l) ++ z :: B := rfl
      rw [this] at hs
      exact (List.pairwise_append.1 hs).1
    have hs2 : (y :: z :: B).Pairwise (· < ·) := by
      rw [hidx] at hs
      exact (List.pairwise_append.1 hs).2.1
    obtain ⟨acc1, pe1, h1, st1⟩ := combine_step msp hmsp prev (decide (z - y ≤ msp)) lo mid x w y l hs1 hw hy
      acc pe P st rows
    have hl' : (y :: z :: B).getLast? = some last := by
      rw [hidx] at hl
      rw [List.getLast?_append] at hl
      cases hc : (y :: z :: B).getLast? with
      | none => simp at hc
      | some q => rw [hc] at hl; simpa using hl
    obtain ⟨acc2, pe2, h2, st2⟩ := ih hs2 hl' y rfl acc1 pe1 _ st1
    refine ⟨acc2, pe2, by rw [h1, h2], ?_⟩
    have e1 := pairs_join msp prev next A y z B
    rw [← hidx, ← hA] at e1
    rw [e1, joinPairs_assoc]
    · exact st2
    · by_cases hps : pairs msp prev (decide (z - y ≤ msp)) (x :: w :: l) = []
      · right
        constructor
        · cases prev with
          | false => rfl
          | true =>
            obtain ⟨e, r, h⟩ := pairs_true_ne_nil msp (decide (z - y ≤ msp)) x (w :: l)
            rw [h] at hps; cases hps
        · cases hn : decide (z - y ≤ msp) with
          | false => rfl
          | true => rw [hn] at hps; exact absurd hps (pairs_next_ne_nil msp prev x (w :: l))
      · exact Or.inl hps

/-- `combined` on the rows of the chunks of one period. -/
theorem combined_seg (msp : Int) (hmsp : 0 ≤ msp) {next : Bool} {lo hi : Int} {idx : List Int}
    {rows : List (RRow (List TF))} (h : Seg msp false lo idx next hi rows) (hs : idx.Pairwise (· < ·))
    (last : Int) (hl : idx.getLast? = some last)
    (hhi : next = true → ∀ p s, (pairs msp false next idx).getLast? = some p → p.1 = some s → s < hi) :
    ∃ rows', combined msp rows = .ok (
      (match ((pairs msp false next idx).map toTF).getLast? with
      | none => []
      | some f => ((pairs msp false next idx).map toTF).dropLast ++
          [{ f with includeEnd := true, rawEnd := if next then some hi else f.rawEnd }]), rows') := by
  obtain ⟨head, hh⟩ : ∃ head, idx.head? = some head := by
    cases idx with
    | nil => simp at hl
    | cons a _ => exact ⟨a, rfl⟩
  obtain ⟨acc, pe, h1, st⟩ := combineLoop_seg msp hmsp h hs last hl head hh [] none []
    ⟨rfl, by simp, by simp, by simp⟩
  have hj : joinPairs false [] (pairs msp false next idx) = pairs msp false next idx := rfl
  rw [hj] at st
  have hls : lastSection acc = ((pairs msp false next idx).map toTF).getLast? := by
    show (flat acc).getLast? = _
    rw [st.flat]
  unfold combined
  rw [h1]
  simp only [hls]
  cases hg : (pairs msp false next idx).getLast? with
  | none =>
    refine ⟨acc, ?_⟩
    have : flat acc = [] := by
      rw [st.flat]; rw [List.getLast?_eq_none_iff] at hg; rw [hg]; rfl
    simp only [List.getLast?_map, hg, Option.map_none]
    have h2 : (acc.map RRow.val).flatten = [] := this
    rw [h2]
  | some p =>
    have hne : flat acc ≠ [] := by
      rw [st.flat]; intro h; rw [List.map_eq_nil_iff] at h; rw [h] at hg; simp at hg
    have hfl : ∀ f, ((putLast acc f).map RRow.val).flatten =
        ((pairs msp false next idx).map toTF).dropLast ++ [f] := by
      intro f
      have := flat_putLast acc f hne
      rw [st.flat] at this
      exact this
    simp only [List.getLast?_map, hg, Option.map_some]
    cases hnext : next with
    | false =>
      have hp2 := st.closed hnext p hg
      obtain ⟨e, he⟩ := Option.ne_none_iff_exists'.1 hp2
      have hst : ({ toTF p with includeEnd := true } : TF).stop = some e := by
        show p.2 = some e
        exact he
      simp only [hst, hfl, hnext]
      exact ⟨_, rfl⟩
    | true =>
      obtain ⟨hpe, p', hp', hp2, hp1⟩ := st.opened hnext
      rw [hg] at hp'; cases hp'
      have hst : ({ toTF p with includeEnd := true } : TF).stop = none := hp2
      have hse : ({ toTF p with includeEnd := true } : TF).setEnd (some hi) =
          .ok { toTF p with includeEnd := true, rawEnd := some hi } := by
        have hstart : ({ toTF p with includeEnd := true } : TF).start = p.1 := rfl
        cases hp1' : p.1 with
        | none => simp only [TF.setEnd, hstart, hp1']
        | some s =>
          have := hhi hnext p s hg hp1'
          simp only [TF.setEnd, hstart, hp1']
          rw [if_neg (by omega)]
      simp only [hst, hpe, hse, hfl, hnext]
      exact ⟨_, rfl⟩

/-- `combined` raises if the last, open section would end where it starts. -/
theorem combined_seg_error (msp : Int) (hmsp : 0 ≤ msp) {lo hi : Int} {idx : List Int}
    {rows : List (RRow (List TF))} (h : Seg msp false lo idx true hi rows) (hs : idx.Pairwise (· < ·))
    (last : Int) (hl : idx.getLast? = some last) (p : Option Int × Option Int) (s : Int)
    (hg : (pairs msp false true idx).getLast? = some p) (hp : p.1 = some s) (hhi : hi ≤ s) :
    combined msp rows = .error .valueError := by
  obtain ⟨head, hh⟩ : ∃ head, idx.head? = some head := by
    cases idx with
    | nil => simp at hl
    | cons a _ => exact ⟨a, rfl⟩
  obtain ⟨acc, pe, h1, st⟩ := combineLoop_seg msp hmsp h hs last hl head hh [] none []
    ⟨rfl, by simp, by simp, by simp⟩
  have hj : joinPairs false [] (pairs msp false true idx) = pairs msp false true idx := rfl
  rw [hj] at st
  have hls : lastSection acc = some (toTF p) := by
    show (flat acc).getLast? = _
    rw [st.flat, List.getLast?_map, hg]; rfl
  obtain ⟨hpe, p', hp', hp2, hp1⟩ := st.opened rfl
  rw [hg] at hp'; cases hp'
  have hst : ({ toTF p with includeEnd := true } : TF).stop = none := hp2
  have hse : ({ toTF p with includeEnd := true } : TF).setEnd (some hi) = .error .valueError := by
    have hstart : ({ toTF p with includeEnd := true } : TF).start = p.1 := rfl
    simp only [TF.setEnd, hstart, hp]
    rw [if_pos hhi]
  unfold combined
  rw [h1]
  simp only [hls, hst, hpe, hse]

end Nilmtk
