import Verif.Model.Pairwise
import Mathlib.Data.List.Nodup
import Mathlib.Data.List.Basic
import Mathlib.Tactic.Linarith
/-!
C83: `MeterGroup.pairwise` and `call_method_on_all_meters`.
-/
namespace Nilmtk

/-! ### Lemmas -/

/-- The first index of a pair before the second. -/
def IdxLt {β : Type} (p q : (β × Nat) × (β × Nat)) : Prop := p.1.2 < q.1.2 ∨ (p.1.2 = q.1.2 ∧ p.2.2 < q.2.2)

theorem zipIdx_increasing {β : Type} (l : List β) (k : Nat) : (l.zipIdx k).Pairwise (fun a b => a.2 < b.2) := by
  induction l generalizing k with
  | nil => exact .nil
  | cons a l ih =>
    rw [List.zipIdx_cons, List.pairwise_cons]
    refine ⟨?_, ih _⟩
    rintro ⟨x, n⟩ hx
    have := List.le_snd_of_mem_zipIdx hx
    simp only
    omega

theorem pairsInOrder_sorted {β : Type} (ms : List β) : (pairsInOrder ms).Pairwise IdxLt := by
  unfold pairsInOrder
  rw [List.pairwise_flatMap]
  refine ⟨?_, ?_⟩
  · intro a _
    rw [List.pairwise_map]
    exact (zipIdx_increasing ms 0).imp (fun h => Or.inr ⟨rfl, h⟩)
  · refine (zipIdx_increasing ms 0).imp ?_
    intro a b hab x hx y hy
    obtain ⟨c, _, rfl⟩ := List.mem_map.1 hx
    obtain ⟨d, _, rfl⟩ := List.mem_map.1 hy
    exact Or.inl hab

theorem mem_pairsInOrder {β : Type} (ms : List β) (a b : β × Nat) :
    (a, b) ∈ pairsInOrder ms ↔ ms[a.2]? = some a.1 ∧ ms[b.2]? = some b.1 := by
  unfold pairsInOrder
  rw [List.mem_flatMap]
  constructor
  · rintro ⟨c, hc, h⟩
    obtain ⟨d, hd, he⟩ := List.mem_map.1 h
    cases he
    exact ⟨List.mem_zipIdx_iff_getElem?.1 hc, List.mem_zipIdx_iff_getElem?.1 hd⟩
  · rintro ⟨h1, h2⟩
    exact ⟨a, List.mem_zipIdx_iff_getElem?.2 h1, List.mem_map.2 ⟨b, List.mem_zipIdx_iff_getElem?.2 h2, rfl⟩⟩

/-- A pair below the diagonal comes after its mirror image. -/
theorem mirror_before {β : Type} (ms : List β) (pre post : List ((β × Nat) × (β × Nat))) (a b : β × Nat)
    (h : pairsInOrder ms = pre ++ (a, b) :: post) (hab : b.2 < a.2) : (b, a) ∈ pre := by
  have hm : (a, b) ∈ pairsInOrder ms := by rw [h]; simp
  have hs : (b, a) ∈ pairsInOrder ms := by
    rw [mem_pairsInOrder] at hm ⊢
    exact ⟨hm.2, hm.1⟩
  have hsorted := pairsInOrder_sorted ms
  rw [h] at hs hsorted
  rcases List.mem_append.1 hs with hs | hs
  · exact hs
  · exfalso
    rcases List.mem_cons.1 hs with he | hs
    · cases he; omega
    · have := (List.pairwise_cons.1 (List.pairwise_append.1 hsorted).2.1).1 _ hs
      rcases this with h1 | ⟨h1, _⟩
      · simp only at h1; omega
      · simp only at h1; omega

/-- The value of a pair: the method is called with the meter that comes first in the group. -/
def pairValue {ι μ α : Type} (method : μ → μ → Except Err α) (p : ((ι × μ) × Nat) × ((ι × μ) × Nat)) : Except Err α :=
  if p.1.2 > p.2.2 then method p.2.1.2 p.1.1.2 else method p.1.1.2 p.2.1.2

theorem pairLoopOn_ok {ι μ α : Type} [DecidableEq ι] (method : μ → μ → Except Err α)
    (ps : List (((ι × μ) × Nat) × ((ι × μ) × Nat))) (done : List (((ι × μ) × Nat) × ((ι × μ) × Nat)))
    (f : PairFrame ι α) (calls : List (μ × μ))
    (hkeys : (done ++ ps).Pairwise (fun p q => (p.1.1.1, p.2.1.1) ≠ (q.1.1.1, q.2.1.1)))
    (hmir : ∀ pre p post, ps = pre ++ p :: post → p.2.2 < p.1.2 → (p.2, p.1) ∈ done ++ pre)
    (hdone : ∀ p ∈ done, ∃ v, pairValue method p = .ok v ∧ f (p.1.1.1, p.2.1.1) = some v) :
    (∀ r, pairLoopOn method ps f calls = .ok r →
      (∀ p ∈ done ++ ps, ∃ v, pairValue method p = .ok v ∧ r.1 (p.1.1.1, p.2.1.1) = some v) ∧
      r.2 = calls ++ (ps.filter (fun p => p.1.2 ≤ p.2.2)).map (fun p => (p.1.1.2, p.2.1.2)) ∧
      ∀ c, (∀ p ∈ ps, (p.1.1.1, p.2.1.1) ≠ c) → r.1 c = f c) ∧
    ∀ e, pairLoopOn method ps f calls = .error e →
      ∃ pre p post, ps = pre ++ p :: post ∧ p.1.2 ≤ p.2.2 ∧ method p.1.1.2 p.2.1.2 = .error e ∧
        ∀ q ∈ pre, q.1.2 ≤ q.2.2 → ∃ v, method q.1.1.2 q.2.1.2 = .ok v := by
  induction ps generalizing done f calls with
  | nil =>
    refine ⟨?_, by intro e h; simp [pairLoopOn] at h⟩
    intro r h
    simp only [pairLoopOn, Except.ok.injEq] at h
    subst h
    exact ⟨by simpa using hdone, by simp, by simp⟩
  | cons p ps ih =>
    obtain ⟨a, b⟩ := p
    have hk2 : ((done ++ [(a, b)]) ++ ps).Pairwise
        (fun p q => (p.1.1.1, p.2.1.1) ≠ (q.1.1.1, q.2.1.1)) := by simpa using hkeys
    have hm2 : ∀ pre p post, ps = pre ++ p :: post → p.2.2 < p.1.2 → (p.2, p.1) ∈ (done ++ [(a, b)]) ++ pre := by
      intro pre p post h hp
      have := hmir ((a, b) :: pre) p post (by rw [h]; rfl) hp
      simpa using this
    have hfresh : ∀ q ∈ done, (q.1.1.1, q.2.1.1) ≠ (a.1.1, b.1.1) := fun q hq =>
      (List.pairwise_append.1 hkeys).2.2 q hq (a, b) List.mem_cons_self
    have step : ∀ v, pairValue method (a, b) = .ok v → ∀ q ∈ done ++ [(a, b)],
        ∃ w, pairValue method q = .ok w ∧ setCell f (a.1.1, b.1.1) (some v) (q.1.1.1, q.2.1.1) = some w := by
      intro v hv q hq
      rcases List.mem_append.1 hq with hq | hq
      · obtain ⟨w, h1, h2⟩ := hdone q hq
        refine ⟨w, h1, ?_⟩
        unfold setCell
        rw [if_neg (hfresh q hq)]; exact h2
      · rw [List.mem_singleton] at hq
        subst hq
        exact ⟨v, hv, by unfold setCell; rw [if_pos rfl]⟩
    have hother : ∀ (v : Option α) (r : PairFrame ι α),
        (∀ c, (∀ p ∈ ps, (p.1.1.1, p.2.1.1) ≠ c) → r c = setCell f (a.1.1, b.1.1) v c) →
        ∀ c, (∀ p ∈ (a, b) :: ps, (p.1.1.1, p.2.1.1) ≠ c) → r c = f c := by
      intro v r hr c hc
      rw [hr c (fun p hp => hc p (List.mem_cons_of_mem _ hp))]
      unfold setCell
      rw [if_neg (fun h => hc (a, b) List.mem_cons_self h.symm)]
    have hmem : ∀ q, q ∈ done ++ (a, b) :: ps ↔ q ∈ (done ++ [(a, b)]) ++ ps := by intro q; simp
    rw [pairLoopOn]
    by_cases hab : a.2 > b.2
    · rw [if_pos hab]
      have hmem' := hmir [] (a, b) ps rfl hab
      rw [List.append_nil] at hmem'
      obtain ⟨v, hv1, hv2⟩ := hdone _ hmem'
      simp only at hv2
      have hpv : pairValue method (a, b) = .ok v := by
        unfold pairValue at hv1 ⊢
        rw [if_neg (by simp only; omega)] at hv1
        rw [if_pos hab]
        exact hv1
      rw [hv2]
      obtain ⟨i1, i2⟩ := ih (done ++ [(a, b)]) (setCell f (a.1.1, b.1.1) (some v)) calls hk2 hm2 (step v hpv)
      refine ⟨?_, ?_⟩
      · intro r hr
        obtain ⟨j1, j2, j3⟩ := i1 r hr
        refine ⟨fun q hq => j1 q ((hmem q).1 hq), ?_, hother _ _ j3⟩
        rw [j2, List.filter_cons_of_neg (by simp only [decide_eq_true_eq]; omega)]
      · intro e he
        obtain ⟨pre, q, post, h1, h2, h3, h4⟩ := i2 e he
        refine ⟨(a, b) :: pre, q, post, by rw [h1]; rfl, h2, h3, ?_⟩
        intro x hx hle
        rcases List.mem_cons.1 hx with rfl | hx
        · simp only at hle; omega
        · exact h4 x hx hle
    · rw [if_neg hab]
      cases hmth : method a.1.2 b.1.2 with
      | error e =>
        refine ⟨by simp, ?_⟩
        intro e' he
        simp only [Except.error.injEq] at he
        subst he
        exact ⟨[], (a, b), ps, rfl, by simp only; omega, hmth, by simp⟩
      | ok v =>
        simp only
        have hpv : pairValue method (a, b) = .ok v := by
          unfold pairValue
          rw [if_neg hab]; exact hmth
        obtain ⟨i1, i2⟩ := ih (done ++ [(a, b)]) (setCell f (a.1.1, b.1.1) (some v)) (calls ++ [(a.1.2, b.1.2)]) hk2 hm2
          (step v hpv)
        refine ⟨?_, ?_⟩
        · intro r hr
          obtain ⟨j1, j2, j3⟩ := i1 r hr
          refine ⟨fun q hq => j1 q ((hmem q).1 hq), ?_, hother _ _ j3⟩
          rw [j2, List.filter_cons_of_pos (by simp only [decide_eq_true_eq]; omega)]
          simp
        · intro e he
          obtain ⟨pre, q, post, h1, h2, h3, h4⟩ := i2 e he
          refine ⟨(a, b) :: pre, q, post, by rw [h1]; rfl, h2, h3, ?_⟩
          intro x hx hle
          rcases List.mem_cons.1 hx with rfl | hx
          · exact ⟨v, hmth⟩
          · exact h4 x hx hle

theorem pairKeys_distinct {ι μ : Type} (ms : List (ι × μ)) (hnd : (ms.map Prod.fst).Nodup) :
    (pairsInOrder ms).Pairwise (fun p q => (p.1.1.1, p.2.1.1) ≠ (q.1.1.1, q.2.1.1)) := by
  have hinj : ∀ (i j : Nat) (x y : ι × μ), ms[i]? = some x → ms[j]? = some y → x.1 = y.1 → i = j := by
    intro i j x y hx hy he
    have h1 : (ms.map Prod.fst)[i]? = some x.1 := by rw [List.getElem?_map, hx]; rfl
    have h2 : (ms.map Prod.fst)[j]? = some x.1 := by rw [List.getElem?_map, hy, he]; rfl
    have hi : i < (ms.map Prod.fst).length := by
      by_contra hn
      rw [List.getElem?_eq_none (by omega)] at h1; cases h1
    exact (List.getElem?_inj hi hnd).1 (h1.trans h2.symm)
  refine (pairsInOrder_sorted ms).imp_of_mem ?_
  rintro ⟨a, b⟩ ⟨c, d⟩ h1 h2 hlt he
  rw [mem_pairsInOrder] at h1 h2
  simp only [Prod.mk.injEq] at he
  have e1 := hinj _ _ _ _ h1.1 h2.1 he.1
  have e2 := hinj _ _ _ _ h1.2 h2.2 he.2
  rcases hlt with h | ⟨_, h⟩
  · simp only at h; omega
  · simp only at h; omega

/-! ### C83 -/

/-- C83. The cell of two meters is the method called with the one that comes first in the group as receiver and the other as
argument; in particular the frame is symmetric. No other cell is filled. -/
theorem C83_cells {ι μ α : Type} [DecidableEq ι] (method : μ → μ → Except Err α) (ms : List (ι × μ))
    (hnd : (ms.map Prod.fst).Nodup) (f : PairFrame ι α) (calls : List (μ × μ))
    (h : pairwiseMeters method ms = .ok (f, calls)) :
    (∀ (i j : Nat) (a b : ι × μ), i ≤ j → ms[i]? = some a → ms[j]? = some b →
      ∃ v, method a.2 b.2 = .ok v ∧ f (a.1, b.1) = some v ∧ f (b.1, a.1) = some v) ∧
    ∀ c, (c.1 ∉ ms.map Prod.fst ∨ c.2 ∉ ms.map Prod.fst) → f c = none := by
  have hk := pairKeys_distinct ms hnd
  have hl := (pairLoopOn_ok method (pairsInOrder ms) [] (fun _ => none) [] (by simpa using hk)
    (fun pre p post he hp => by simpa using mirror_before ms pre post p.1 p.2 he hp) (by simp)).1 (f, calls) h
  obtain ⟨h1, _, h3⟩ := hl
  constructor
  · intro i j a b hij ha hb
    have hp1 : ((a, i), (b, j)) ∈ pairsInOrder ms := (mem_pairsInOrder ms (a, i) (b, j)).2 ⟨ha, hb⟩
    have hp2 : ((b, j), (a, i)) ∈ pairsInOrder ms := (mem_pairsInOrder ms (b, j) (a, i)).2 ⟨hb, ha⟩
    obtain ⟨v, hv, hf⟩ := h1 _ (by simpa using hp1)
    obtain ⟨w, hw, hg⟩ := h1 _ (by simpa using hp2)
    unfold pairValue at hv hw
    rw [if_neg (by simp only; omega)] at hv
    by_cases hlt : i < j
    · rw [if_pos hlt] at hw
      simp only at hv hw
      rw [hv] at hw
      cases hw
      exact ⟨v, hv, hf, hg⟩
    · have : i = j := by omega
      subst this
      rw [ha] at hb
      cases hb
      exact ⟨v, hv, hf, hf⟩
  · intro c hc
    apply h3 c
    rintro ⟨a, b⟩ hp he
    rw [mem_pairsInOrder] at hp
    subst he
    rcases hc with hc | hc
    · exact hc (List.mem_map.2 ⟨_, List.mem_of_getElem? hp.1, rfl⟩)
    · exact hc (List.mem_map.2 ⟨_, List.mem_of_getElem? hp.2, rfl⟩)

/-- C83. The method is called once for every pair of positions `i ≤ j`, in order, and no more. -/
theorem C83_calls {ι μ α : Type} [DecidableEq ι] (method : μ → μ → Except Err α) (ms : List (ι × μ))
    (hnd : (ms.map Prod.fst).Nodup) (f : PairFrame ι α) (calls : List (μ × μ))
    (h : pairwiseMeters method ms = .ok (f, calls)) :
    calls = ms.zipIdx.flatMap (fun a => (ms.drop a.2).map (fun b => (a.1.2, b.2))) := by
  have hk := pairKeys_distinct ms hnd
  have hl := (pairLoopOn_ok method (pairsInOrder ms) [] (fun _ => none) [] (by simpa using hk)
    (fun pre p post he hp => by simpa using mirror_before ms pre post p.1 p.2 he hp) (by simp)).1 (f, calls) h
  have hc : calls = _ := hl.2.1
  rw [hc, List.nil_append]
  unfold pairsInOrder
  rw [List.filter_flatMap, List.map_flatMap]
  apply List.flatMap_congr
  intro a _
  rw [List.filter_map, List.map_map]
  have hz : ∀ (l : List (ι × μ)) (k n : Nat), k ≤ n →
      ((l.zipIdx k).filter ((fun p => decide (p.1.2 ≤ p.2.2)) ∘ fun b => ((a.1, n), b))).map
        ((fun p : ((ι × μ) × Nat) × ((ι × μ) × Nat) => (p.1.1.2, p.2.1.2)) ∘ fun b => ((a.1, n), b)) =
      (l.drop (n - k)).map (fun b => (a.1.2, b.2)) := by
    intro l
    induction l with
    | nil => intro k n _; simp
    | cons x l ih =>
      intro k n hkn
      rw [List.zipIdx_cons]
      by_cases he : k = n
      · subst he
        rw [List.filter_cons_of_pos (by simp)]
        have hall : (l.zipIdx (k + 1)).filter ((fun p => decide (p.1.2 ≤ p.2.2)) ∘ fun b => ((a.1, k), b)) =
            l.zipIdx (k + 1) := by
          rw [List.filter_eq_self]
          rintro ⟨y, m⟩ hy
          have := List.le_snd_of_mem_zipIdx hy
          simp only [Function.comp, decide_eq_true_eq]
          omega
        rw [hall]
        simp only [List.map_cons, Nat.sub_self, List.drop_zero]
        congr 1
        have : ((fun p : ((ι × μ) × Nat) × ((ι × μ) × Nat) => (p.1.1.2, p.2.1.2)) ∘ fun b => ((a.1, k), b)) =
            (fun b : ι × μ => (a.1.2, b.2)) ∘ Prod.fst := rfl
        rw [this, ← List.map_map, List.zipIdx_map_fst]
      · rw [List.filter_cons_of_neg (by simp only [Function.comp, decide_eq_true_eq]; omega), ih (k + 1) n (by omega)]
        have : n - k = (n - (k + 1)) + 1 := by omega
        rw [this, List.drop_succ_cons]
  have := hz ms 0 a.2 (by omega)
  simpa using this

/-- C83. The call fails exactly if the method fails for some pair, and then with the error of the first such pair. -/
theorem C83_error {ι μ α : Type} [DecidableEq ι] (method : μ → μ → Except Err α) (ms : List (ι × μ))
    (hnd : (ms.map Prod.fst).Nodup) :
    ((∃ r, pairwiseMeters method ms = .ok r) ↔
      ∀ (i j : Nat) (a b : ι × μ), i ≤ j → ms[i]? = some a → ms[j]? = some b → ∃ v, method a.2 b.2 = .ok v) ∧
    ∀ e, pairwiseMeters method ms = .error e →
      ∃ (i j : Nat) (a b : ι × μ), i ≤ j ∧ ms[i]? = some a ∧ ms[j]? = some b ∧ method a.2 b.2 = .error e ∧
        ∀ (i' j' : Nat) (a' b' : ι × μ), i' ≤ j' → ms[i']? = some a' → ms[j']? = some b' → (i' < i ∨ (i' = i ∧ j' < j)) →
          ∃ v, method a'.2 b'.2 = .ok v := by
  have hk := pairKeys_distinct ms hnd
  have hl := (pairLoopOn_ok method (pairsInOrder ms) [] (fun _ => none) [] (by simpa using hk)
    (fun pre p post he hp => by simpa using mirror_before ms pre post p.1 p.2 he hp) (by simp)).2
  have herr : ∀ e, pairwiseMeters method ms = .error e →
      ∃ (i j : Nat) (a b : ι × μ), i ≤ j ∧ ms[i]? = some a ∧ ms[j]? = some b ∧ method a.2 b.2 = .error e ∧
        ∀ (i' j' : Nat) (a' b' : ι × μ), i' ≤ j' → ms[i']? = some a' → ms[j']? = some b' → (i' < i ∨ (i' = i ∧ j' < j)) →
          ∃ v, method a'.2 b'.2 = .ok v := by
    intro e he
    obtain ⟨pre, ⟨a, b⟩, post, h1, h2, h3, h4⟩ := hl e he
    have hm : (a, b) ∈ pairsInOrder ms := by rw [h1]; simp
    rw [mem_pairsInOrder] at hm
    refine ⟨a.2, b.2, a.1, b.1, h2, hm.1, hm.2, h3, ?_⟩
    intro i' j' a' b' hij ha hb hlt
    have hq : ((a', i'), (b', j')) ∈ pairsInOrder ms := (mem_pairsInOrder ms (a', i') (b', j')).2 ⟨ha, hb⟩
    have hs := pairsInOrder_sorted ms
    rw [h1] at hq hs
    rcases List.mem_append.1 hq with hq | hq
    · exact h4 _ hq hij
    · exfalso
      rcases List.mem_cons.1 hq with he | hq
      · cases he; simp only at hlt; omega
      · rcases (List.pairwise_cons.1 (List.pairwise_append.1 hs).2.1).1 _ hq with h | ⟨h, h'⟩
        · simp only at h; omega
        · simp only at h h'; omega
  refine ⟨⟨?_, ?_⟩, herr⟩
  · rintro ⟨⟨f, calls⟩, hr⟩ i j a b hij ha hb
    obtain ⟨v, hv, _⟩ := (C83_cells method ms hnd f calls hr).1 i j a b hij ha hb
    exact ⟨v, hv⟩
  · intro hall
    cases hr : pairwiseMeters method ms with
    | ok r => exact ⟨r, rfl⟩
    | error e =>
      obtain ⟨i, j, a, b, hij, ha, hb, hm, _⟩ := herr e hr
      obtain ⟨v, hv⟩ := hall i j a b hij ha hb
      rw [hm] at hv
      cases hv

/-- C83. For a symmetric method every cell is the method called with the meters of its column and row, in either order. -/
theorem C83_symmetric {ι μ α : Type} [DecidableEq ι] (method : μ → μ → Except Err α) (hsym : ∀ a b, method a b = method b a)
    (ms : List (ι × μ)) (hnd : (ms.map Prod.fst).Nodup) (f : PairFrame ι α) (calls : List (μ × μ))
    (h : pairwiseMeters method ms = .ok (f, calls)) (a b : ι × μ) (ha : a ∈ ms) (hb : b ∈ ms) :
    ∃ v, method a.2 b.2 = .ok v ∧ f (a.1, b.1) = some v := by
  obtain ⟨i, hi⟩ := List.getElem?_of_mem ha
  obtain ⟨j, hj⟩ := List.getElem?_of_mem hb
  rcases Nat.le_total i j with hij | hij
  · obtain ⟨v, h1, h2, _⟩ := (C83_cells method ms hnd f calls h).1 i j a b hij hi hj
    exact ⟨v, h1, h2⟩
  · obtain ⟨v, h1, _, h3⟩ := (C83_cells method ms hnd f calls h).1 j i b a hij hj hi
    exact ⟨v, by rw [hsym]; exact h1, h3⟩

/-- C83. `call_method_on_all_meters` gives the method's result for every meter, and fails with the first error. -/
theorem C83_call_on_all {ι μ α : Type} [DecidableEq ι] (method : μ → Except Err α) (ms : List (ι × μ))
    (hnd : (ms.map Prod.fst).Nodup) :
    (∀ s, callOnAll method ms = .ok s →
      (∀ a ∈ ms, ∃ v, method a.2 = .ok v ∧ s a.1 = some v) ∧ ∀ i, i ∉ ms.map Prod.fst → s i = none) ∧
    ∀ e, callOnAll method ms = .error e →
      ∃ pre a post, ms = pre ++ a :: post ∧ method a.2 = .error e ∧ ∀ b ∈ pre, ∃ v, method b.2 = .ok v := by
  unfold callOnAll
  have key : ∀ (s0 : ι → Option α),
      (∀ s, callLoop method ms s0 = .ok s →
        (∀ a ∈ ms, ∃ v, method a.2 = .ok v ∧ s a.1 = some v) ∧ ∀ i, i ∉ ms.map Prod.fst → s i = s0 i) ∧
      ∀ e, callLoop method ms s0 = .error e →
        ∃ pre a post, ms = pre ++ a :: post ∧ method a.2 = .error e ∧ ∀ b ∈ pre, ∃ v, method b.2 = .ok v := by
    induction ms with
    | nil =>
      intro s0
      refine ⟨?_, by intro e h; simp [callLoop] at h⟩
      intro s h
      simp only [callLoop, Except.ok.injEq] at h
      subst h
      exact ⟨by simp, by simp⟩
    | cons p ms ih =>
      obtain ⟨i, m⟩ := p
      rw [List.map_cons, List.nodup_cons] at hnd
      intro s0
      rw [callLoop]
      cases hm : method m with
      | error e =>
        refine ⟨by simp, ?_⟩
        intro e' h
        simp only [Except.error.injEq] at h
        subst h
        exact ⟨[], (i, m), ms, rfl, hm, by simp⟩
      | ok v =>
        simp only
        obtain ⟨i1, i2⟩ := ih hnd.2 (fun j => if j = i then some v else s0 j)
        refine ⟨?_, ?_⟩
        · intro s hs
          obtain ⟨j1, j2⟩ := i1 s hs
          refine ⟨?_, ?_⟩
          · intro a ha
            rcases List.mem_cons.1 ha with rfl | ha
            · refine ⟨v, hm, ?_⟩
              rw [j2 i hnd.1]
              simp
            · exact j1 a ha
          · intro j hj
            rw [List.map_cons, List.mem_cons, not_or] at hj
            rw [j2 j hj.2, if_neg hj.1]
        · intro e he
          obtain ⟨pre, a, post, h1, h2, h3⟩ := i2 e he
          refine ⟨(i, m) :: pre, a, post, by rw [h1]; rfl, h2, ?_⟩
          intro b hb
          rcases List.mem_cons.1 hb with rfl | hb
          · exact ⟨v, hm⟩
          · exact h3 b hb
  exact key _

/-- Three meters and a symmetric method. -/
example : ∃ f, pairwiseMeters (fun a b : Int => Except.ok (a * b)) [(1, 2), (2, 3), (3, 5)] =
    .ok (f, [(2, 2), (2, 3), (2, 5), (3, 3), (3, 5), (5, 5)]) ∧ f (3, 1) = some 10 ∧ f (1, 3) = some 10 ∧
    f ((2 : Int), 2) = some 9 := ⟨_, rfl, rfl, rfl, rfl⟩

/-- C83. A method that is not symmetric: the mirrored cell is not what the method would give. -/
theorem C83_asymmetric_counterexample : ∃ f, pairwiseMeters (fun a b : Int => Except.ok (a - b)) [((1 : Int), 2), (2, 3)] =
    .ok (f, [(2, 2), (2, 3), (3, 3)]) ∧ f (2, 1) = some (-1) ∧ (3 : Int) - 2 ≠ -1 := ⟨_, rfl, rfl, by decide⟩

end Nilmtk
