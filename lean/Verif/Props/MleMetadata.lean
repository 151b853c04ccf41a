import Verif.Model.MleMetadata
import Verif.Props.MleStore
/-!
C136: the metadata that `MLE.disaggregate` writes.
-/
namespace Nilmtk

theorem building_of_rows (store : DisagStore) (b n : Nat) (h : outRows store (outMeterKey b n) ≠ []) :
    store.seen (hdfComponents (outBuilding b)) ≠ none := by
  intro hn
  have hf : store.find (hdfComponents (outBuilding b)) = none := by
    unfold HGroup.seen at hn
    simpa using hn
  have hg := outRows_get store _ h
  rw [C93_get, outMeterKey_components, ← List.singleton_append, ← outBuilding_components, find_none_seen hf] at hg
  cases hg

theorem one_append_metadata (store : DisagStore) (b n : Nat) (df : List (Row (Option Rat))) (key : Str) :
    hdfGetMetadata (hdfRun [.append (outMeterKey b n) df] store) key = hdfGetMetadata store key :=
  append_metadata _ (fun c hc => by rw [List.mem_singleton.1 hc]; exact ⟨b, n, df, rfl⟩) store key

theorem mleStoreLoop_metadata (sort : List MleDet → List MleDet) (m : MleModel (String × String)) (resample : List (Row (Option Rat)) → List MleRow)
    (building : Nat) (key : Str) : ∀ (ks : List PowerChunk) (store : DisagStore),
    hdfGetMetadata (mleStoreLoop sort m resample building ks store).1 key = hdfGetMetadata store key
  | [], _ => rfl
  | k :: ks, store => by
    rw [mleStoreLoop]
    cases mleDisaggregate sort m k.measurement (resample k.rows) with
    | error e => rfl
    | ok out =>
      simp only [run_one_append]
      rw [mleStoreLoop_metadata sort m resample building key ks, one_append_metadata, one_append_metadata]

theorem mleMains_metadata (sort : List MleDet → List MleDet) (m : MleModel (String × String)) (resample : List (Row (Option Rat)) → List MleRow)
    (building : Nat) (mains : Gen PowerChunk) (store : DisagStore) (key : Str) :
    hdfGetMetadata (mleMains sort m resample building mains store).1 key = hdfGetMetadata store key := by
  have h := mleStoreLoop_metadata sort m resample building key mains.out store
  unfold mleMains
  rcases hr : mleStoreLoop sort m resample building mains.out store with ⟨st, e | u⟩
  · rw [hr] at h
    exact h
  · rw [hr] at h
    simp only
    cases mains.err with
    | some e => exact h
    | none =>
      simp only
      split <;> exact h

/-- C136. Disaggregation of mains as in C134, whose chunks are sorted and do not overlap and have a row: the data are stored as C134 says, the data set
is described as from the start of the first chunk to the end of the last, with two devices that measure what the last chunk does every 10 seconds, and the
building with the mains as meter 1 and a submeter of it as meter 2; no other metadata change. Missing of the claim that is expected: that appliance and sample period are those of the
model. They are a kettle and 10 seconds for every model. -/
theorem C136_metadata_partial (sort : List MleDet → List MleDet) (hs : ByLikelihood sort) (m : MleModel (String × String)) (hn : 0 ≤ m.powerNoise)
    (resample : List (Row (Option Rat)) → List MleRow) (building : Nat) (mains : Gen PowerChunk) (herr : mains.err = none)
    (hu : ∀ k ∈ mains.out, RightUnits m k) (hrow : ∃ k ∈ mains.out, k.rows ≠ []) (hsorted : SortedDisjoint (mains.out.map PowerChunk.frame))
    (first last : PowerChunk) (hfirst : mains.out.head? = some first) (hlast : mains.out.getLast? = some last) (store : DisagStore) :
    ∃ outs after, mleFull sort m resample building mains store = (after, .ok ()) ∧
      List.Forall₂ (fun k out => MleOutput m (resample k.rows) out) mains.out outs ∧ Wrote building store after mains.out outs ∧
      hdfGetMetadata after "/".toList = .ok (.dataset "MLE" [("MLE", ⟨"MLE", 10, 10, [last.measurement]⟩), ("mains", ⟨"mains", 10, 10, [last.measurement]⟩)]
        (first.frame.start, last.frame.stop)) ∧
      hdfGetMetadata after (outBuilding building) = .ok (.building building
        [(1, ⟨"mains", true, none, outMeterKey building 1, (first.frame.start, last.frame.stop), none⟩),
          (2, ⟨"MLE", false, some 1, outMeterKey building 2, (first.frame.start, last.frame.stop), some "kettle"⟩)]
        [⟨[2], "kettle", 1⟩]) ∧
      ∀ key, hdfComponents key ≠ [] → hdfComponents key ≠ hdfComponents (outBuilding building) → hdfGetMetadata after key = hdfGetMetadata store key := by
  obtain ⟨k, rest, hcons⟩ : ∃ k rest, mains.out = k :: rest := by
    cases h : mains.out with
    | nil => rw [h] at hfirst; cases hfirst
    | cons k rest => exact ⟨k, rest, rfl⟩
  have hkf : k = first := by rw [hcons] at hfirst; simpa using hfirst
  subst hkf
  obtain ⟨outs, mid, h1, h2, w1, w2, w3⟩ := C134_stored sort hs m hn resample building mains herr (by rw [hcons]; simp) hu store
  have hb : mid.seen (hdfComponents (outBuilding building)) ≠ none := by
    apply building_of_rows mid building 1
    rw [w1]
    obtain ⟨x, hx, hr⟩ := hrow
    intro hnil
    exact hr (List.flatMap_eq_nil_iff.1 (List.append_eq_nil_iff.1 hnil).2 x hx)
  obtain ⟨after, tf, s1, s2, s3, s4, s5, s6⟩ := C95_save mid "MLE" (by decide) 10 (by decide) last.measurement k.frame (rest.map PowerChunk.frame)
    (by rw [hcons] at hsorted; exact hsorted) building (.supervised [mleKettle building]) (by rintro ms ⟨⟩; simp [mleKettle]) hb
  have htf : tf = (k.frame.start, last.frame.stop) := by
    rw [s2, ← List.map_cons, ← hcons, List.getLast?_map, hlast]
    rfl
  subst htf
  rw [show k.frame :: rest.map PowerChunk.frame = mains.out.map PowerChunk.frame from by rw [hcons, List.map_cons]] at s1
  have ho : ∀ key, outRows after key = outRows mid key := fun key => by unfold outRows; rw [s6]
  refine ⟨outs, after, ?_, h2, ⟨by rw [ho, w1], by rw [ho, w2], fun b n hbn => by rw [ho, w3 b n hbn]⟩, s3, s4, fun key k1 k2 => ?_⟩
  rotate_left
  · rw [s5 key k1 k2, ← mleMains_metadata sort m resample building mains store key, h1]
  unfold mleFull
  rw [h1, hlast]
  exact s1

/-- C136. Exceptions of C134 come out, with the store as the chunks before them left it; then no metadata change. -/
theorem C136_refused (sort : List MleDet → List MleDet) (m : MleModel (String × String)) (resample : List (Row (Option Rat)) → List MleRow)
    (building : Nat) (mains : Gen PowerChunk) (store after : DisagStore) (e : Err)
    (h : mleMains sort m resample building mains store = (after, .error e)) :
    mleFull sort m resample building mains store = (after, .error e) ∧ ∀ key, hdfGetMetadata after key = hdfGetMetadata store key := by
  refine ⟨by unfold mleFull; rw [h], fun key => ?_⟩
  rw [← mleMains_metadata sort m resample building mains store key, h]

/-- Two chunks, one after the other. -/
example : ∃ mains : Gen PowerChunk, mains.err = none ∧ (∀ k ∈ mains.out, RightUnits demoMleMains k) ∧ (∃ k ∈ mains.out, k.rows ≠ []) ∧
    mains.out.length = 2 ∧ SortedDisjoint (mains.out.map PowerChunk.frame) := by
  refine ⟨⟨[⟨[(0, some 5)], ⟨some 0, some 10, true, false, false⟩, ("power", "active")⟩, ⟨[], ⟨some 10, some 30, true, false, false⟩, ("power", "active")⟩], none⟩,
    rfl, ?_, ⟨_, List.mem_cons_self, by simp⟩, rfl, ?_⟩
  · intro k hk
    simp only [List.mem_cons, List.not_mem_nil, or_false] at hk
    rcases hk with rfl | rfl <;> exact .inr rfl
  · exact Chain.cons _ _ _ 0 10 10 ⟨rfl, rfl, rfl, rfl⟩ (by decide) rfl (by decide) (Chain.single _ 10 30 ⟨rfl, rfl, rfl, rfl⟩ (by decide))

end Nilmtk
