import Verif.Model.ExperimentRun
import Verif.Props.Experiment
/-!
C90: an experiment trains every method on exactly the prepared training data, and methods do not influence each other.
-/
namespace Nilmtk

/-! ### Specification -/

/-- What a method is trained on for one set of frames: the readings of the mains and of all appliances at the instants at which all of
them have one, or the sum of the appliances as mains. -/
def ShownForTraining {ρ : Type} (cfg : ExpCfg ρ) (mains : RowFrame) (frames : String → RowFrame)
    (p : RowFrame × (String → RowFrame)) : Prop :=
  ∃ ix truth, CommonIndex mains (cfg.appliances.map frames) ix ∧
    (∀ a ∈ cfg.appliances, ReadsAt (frames a) ix (truth a) ∧ p.2 a = ix.zip ((truth a).map (fun v => [v]))) ∧
    MainsShown cfg.artificial mains cfg.appliances truth ix p.1

/-- One call of `partial_fit`: mains, appliances, third argument. -/
abbrev FitCall := List RowFrame × List (String × List RowFrame) × Option Nat

/-- The calls of `partial_fit`, one after the other, all succeed and lead from one state to another. -/
inductive FitRun {σ : Type} (fit : σ → List RowFrame → List (String × List RowFrame) → Option Nat → Except Err σ) :
    σ → List FitCall → σ → Prop
  | nil (s : σ) : FitRun fit s [] s
  | cons {s s' s'' : σ} {c : FitCall} {cs : List FitCall} (h : fit s c.1 c.2.1 c.2.2 = .ok s') (t : FitRun fit s' cs s'') :
      FitRun fit s (c :: cs) s''

/-- Every chunk of the mains of every building. -/
def allRounds (bs : List ChunkedBuilding) : List (ChunkedBuilding × Nat) :=
  bs.flatMap (fun b => (List.range b.mains.length).map (fun k => (b, k)))

/-- One call, for all buildings together. -/
def TrainedOnce {ρ σ : Type} (cfg : ExpCfg ρ) (bs : List ExpBuilding) (frames : ExpBuilding → String → RowFrame) (c c' : Clf σ) : Prop :=
  ∃ parts : List (RowFrame × (String → RowFrame)),
    List.Forall₂ (fun b p => ShownForTraining cfg b.mains (frames b) p) bs parts ∧
    ∃ s, c.fit c.nEpochs c.state (parts.map Prod.fst) (cfg.appliances.map (fun a => (a, parts.map (fun p => p.2 a)))) none = .ok s ∧
      c' = { c with state := s }

/-- `n` epochs, each with one call per building and chunk of the mains, in order, with the number of the epoch. -/
def TrainedInChunks {ρ σ : Type} (cfg : ExpCfg ρ) (bs : List ChunkedBuilding) (chunks : ChunkedBuilding → String → List RowFrame)
    (n : Nat) (c c' : Clf σ) : Prop :=
  (n = 0 → c' = c) ∧
  (n ≠ 0 → ∃ parts : List (RowFrame × (String → RowFrame)),
    List.Forall₂ (fun r p => ShownForTraining cfg (r.1.mains.getD r.2 []) (fun a => (chunks r.1 a).getD r.2 []) p) (allRounds bs) parts ∧
    ∃ s, FitRun (c.fit c.nEpochs) c.state ((List.range n).flatMap (fun i =>
        parts.map (fun p => ([p.1], cfg.appliances.map (fun a => (a, [p.2 a])), some i)))) s ∧
      c' = { c with state := s })

/-- What training does to a method. -/
def TrainedAs {ρ σ : Type} (cfg : ExpCfg ρ) (chunkSize : Option Nat) (d : ExpData) (frames : ExpBuilding → String → RowFrame)
    (chunks : ChunkedBuilding → String → List RowFrame) (c c' : Clf σ) : Prop :=
  ((∃ p, c.loadModelPath = some (some p) ∧ p ≠ "") → c' = c) ∧
  ((¬ ∃ p, c.loadModelPath = some (some p) ∧ p ≠ "") →
    ((∃ k, chunkSize = some k ∧ 0 < k) ∧ c.chunkWise = some true →
      (∀ n, c.nEpochs = some n → TrainedInChunks cfg d.chunked chunks n.toNat { c with nEpochs := some 1 } c') ∧
      (c.nEpochs = none → TrainedInChunks cfg d.chunked chunks 1 c c')) ∧
    (¬ ((∃ k, chunkSize = some k ∧ 0 < k) ∧ c.chunkWise = some true) → TrainedOnce cfg d.whole frames c c'))

/-- The same report with only the row of one method in each table. -/
def onlyRow {ρ : Type} (n : String) (st : ExpState ρ) : ExpState ρ :=
  { st with errors := st.errors.map (fun t => t.filter (fun e => e.1 == n)) }

/-! ### Training -/

theorem FitRun.append {σ : Type} {fit : σ → List RowFrame → List (String × List RowFrame) → Option Nat → Except Err σ}
    {s s' s'' : σ} {a b : List FitCall} (h : FitRun fit s a s') (h' : FitRun fit s' b s'') : FitRun fit s (a ++ b) s'' := by
  induction h with
  | nil => exact h'
  | cons h1 _ ih => exact .cons h1 (ih h')

/-- The calls for one epoch. -/
def epochCalls {ρ : Type} (cfg : ExpCfg ρ) (i : Nat) (outs : List (RowFrame × List RowFrame)) : List FitCall :=
  outs.map (fun o => ([o.1], cfg.appliances.zip (o.2.map (fun f => [f])), some i))

theorem fitRounds_run {ρ σ : Type} (cfg : ExpCfg ρ) (i : Nat) : ∀ (rs : List (RowFrame × List RowFrame)) (c c' : Clf σ),
    fitRounds cfg i rs c = .ok c' → ∃ outs, mapE (fun r => prepare cfg r.1 r.2) rs = .ok outs ∧
      FitRun (c.fit c.nEpochs) c.state (epochCalls cfg i outs) c'.state ∧ c' = { c with state := c'.state } := by
  intro rs
  induction rs with
  | nil =>
    intro c c' h
    simp only [fitRounds, Except.ok.injEq] at h
    subst h
    exact ⟨[], rfl, .nil _, rfl⟩
  | cons r rs ih =>
    obtain ⟨m, apps⟩ := r
    intro c c' h
    simp only [fitRounds] at h
    split at h
    · cases h
    rename_i m' as hp
    split at h
    · cases h
    rename_i s hs
    obtain ⟨outs, h1, h2, h3⟩ := ih _ _ h
    refine ⟨(m', as) :: outs, ?_, .cons hs h2, h3⟩
    simp only [mapE, hp, h1]

/-- The rounds of all buildings, loaded. -/
def loadedRounds {ρ : Type} (cfg : ExpCfg ρ) : List ChunkedBuilding → Except Err (List (RowFrame × List RowFrame))
  | [] => .ok []
  | b :: bs =>
    match mapE b.load cfg.appliances with
    | .error e => .error e
    | .ok apps =>
      match loadedRounds cfg bs with
      | .error e => .error e
      | .ok rs => .ok (chunkRounds b.mains apps ++ rs)

theorem mapE_append {α β : Type} {f : α → Except Err β} {a b : List α} {x y : List β} (ha : mapE f a = .ok x) (hb : mapE f b = .ok y) :
    mapE f (a ++ b) = .ok (x ++ y) :=
  mapE_ok.2 (List.rel_append (mapE_ok.1 ha) (mapE_ok.1 hb))

theorem trainChunkWise_run {ρ σ : Type} (cfg : ExpCfg ρ) (i : Nat) : ∀ (bs : List ChunkedBuilding) (c c' : Clf σ),
    trainChunkWise cfg i bs c = .ok c' → ∃ rs outs, loadedRounds cfg bs = .ok rs ∧
      mapE (fun r : RowFrame × List RowFrame => prepare cfg r.1 r.2) rs = .ok outs ∧
      FitRun (c.fit c.nEpochs) c.state (epochCalls cfg i outs) c'.state ∧ c' = { c with state := c'.state } := by
  intro bs
  induction bs with
  | nil =>
    intro c c' h
    simp only [trainChunkWise, Except.ok.injEq] at h
    subst h
    exact ⟨[], [], rfl, rfl, .nil _, rfl⟩
  | cons b bs ih =>
    intro c c' h
    simp only [trainChunkWise] at h
    split at h
    · cases h
    rename_i apps ha
    split at h
    · cases h
    rename_i c1 h1
    obtain ⟨o1, p1, p2, p3⟩ := fitRounds_run cfg i _ _ _ h1
    obtain ⟨rs, o2, q0, q1, q2, q3⟩ := ih _ _ h
    refine ⟨_, o1 ++ o2, ?_, mapE_append p1 q1, ?_, ?_⟩
    · simp only [loadedRounds, ha, q0]
    · unfold epochCalls at p2 q2 ⊢
      rw [List.map_append]
      refine p2.append ?_
      rw [p3] at q2
      exact q2
    · rw [p3] at q3; exact q3

theorem epochLoop_run {ρ σ : Type} (cfg : ExpCfg ρ) (bs : List ChunkedBuilding) (rs outs : List (RowFrame × List RowFrame))
    (hr : loadedRounds cfg bs = .ok rs) (ho : mapE (fun r : RowFrame × List RowFrame => prepare cfg r.1 r.2) rs = .ok outs) :
    ∀ (is : List Nat) (c c' : Clf σ), epochLoop cfg bs is c = .ok c' →
      FitRun (c.fit c.nEpochs) c.state (is.flatMap (fun i => epochCalls cfg i outs)) c'.state ∧ c' = { c with state := c'.state } := by
  intro is
  induction is with
  | nil =>
    intro c c' h
    simp only [epochLoop, Except.ok.injEq] at h
    subst h
    exact ⟨.nil _, rfl⟩
  | cons i is ih =>
    intro c c' h
    simp only [epochLoop] at h
    split at h
    · cases h
    rename_i c1 h1
    obtain ⟨rs', outs', p0, p1, p2, p3⟩ := trainChunkWise_run cfg i _ _ _ h1
    rw [hr] at p0
    cases p0
    rw [ho] at p1
    cases p1
    obtain ⟨q2, q3⟩ := ih _ _ h
    refine ⟨?_, ?_⟩
    · rw [List.flatMap_cons]
      refine p2.append ?_
      rw [p3] at q2
      exact q2
    · rw [p3] at q3; exact q3

theorem loadedRounds_good {ρ : Type} (cfg : ExpCfg ρ) (chunks : ChunkedBuilding → String → List RowFrame) :
    ∀ (bs : List ChunkedBuilding) (rs : List (RowFrame × List RowFrame)), (∀ b ∈ bs, GoodChunks cfg.appliances b (chunks b)) →
    loadedRounds cfg bs = .ok rs →
    rs = (allRounds bs).map (fun r => (r.1.mains.getD r.2 [], cfg.appliances.map (fun a => (chunks r.1 a).getD r.2 []))) := by
  intro bs
  induction bs with
  | nil =>
    intro rs _ h
    simp only [loadedRounds, Except.ok.injEq] at h
    subst h
    rfl
  | cons b bs ih =>
    intro rs hb h
    simp only [loadedRounds] at h
    split at h
    · cases h
    rename_i apps happs
    split at h
    · cases h
    rename_i rs' hrs
    simp only [Except.ok.injEq] at h
    subst h
    have hgb := hb b (by simp)
    have hap : apps = cfg.appliances.map (chunks b) := by
      have h' := mapE_ok.1 happs
      have hl : ∀ a ∈ cfg.appliances, ∀ x, b.load a = .ok x → x = chunks b a := by
        intro a ha x hx
        rw [(hgb.2 a ha).1] at hx
        exact (Except.ok.inj hx).symm
      clear happs hb hgb
      revert hl
      generalize cfg.appliances = names at h'
      intro hl
      induction h' with
      | nil => rfl
      | @cons a x names apps h1 h2 ih =>
        rw [List.map_cons, ← ih (fun a ha => hl a (by simp [ha])), hl a (by simp) x h1]
    subst hap
    rw [chunkRounds_get, ih rs' (fun b' hb' => hb b' (by simp [hb'])) hrs]
    unfold allRounds
    rw [List.flatMap_cons, List.map_append, List.map_map]
    rfl

theorem goodChunks_round {names : List String} {b : ChunkedBuilding} {chunks : String → List RowFrame} (hb : GoodChunks names b chunks)
    {k : Nat} (hk : k < b.mains.length) :
    UniqueIndex (b.mains.getD k []) ∧ ∀ a ∈ names, OneColumn ((chunks a).getD k []) := by
  refine ⟨hb.1 _ ?_, ?_⟩
  · simp only [List.getD_eq_getElem _ _ hk]; exact List.getElem_mem hk
  · intro a ha
    by_cases hlt : k < (chunks a).length
    · rw [List.getD_eq_getElem _ _ hlt]
      exact (hb.2 a ha).2 _ (List.getElem_mem hlt)
    · rw [List.getD_eq_default _ _ (by omega)]
      exact oneColumn_nil

/-- The prepared frames of a list of rounds. -/
theorem prepared_parts {ρ α : Type} (cfg : ExpCfg ρ) (hd : cfg.dropAllNans = true) (M : α → RowFrame) (F : α → String → RowFrame) :
    ∀ (l : List α) (outs : List (RowFrame × List RowFrame)),
    (∀ x ∈ l, UniqueIndex (M x) ∧ ∀ a ∈ cfg.appliances, OneColumn (F x a)) →
    mapE (fun r : RowFrame × List RowFrame => prepare cfg r.1 r.2) (l.map (fun x => (M x, cfg.appliances.map (F x)))) = .ok outs →
    ∃ parts : List (RowFrame × (String → RowFrame)), List.Forall₂ (fun x p => ShownForTraining cfg (M x) (F x) p) l parts ∧
      outs = parts.map (fun p => (p.1, cfg.appliances.map p.2)) := by
  intro l
  induction l with
  | nil =>
    intro outs _ h
    simp only [List.map_nil, mapE, Except.ok.injEq] at h
    subst h
    exact ⟨[], .nil, rfl⟩
  | cons x l ih =>
    intro outs hg h
    have h' := mapE_ok.1 h
    clear h
    rw [List.map_cons] at h'
    cases h' with
    | @cons _ o _ outs' h1 h2 =>
      obtain ⟨m, as⟩ := o
      simp only at h1
      obtain ⟨ix, G, p1, p2, p3, p4⟩ := prepare_spec cfg hd (M x) (hg x (by simp)).1 (F x) (hg x (by simp)).2 m as h1
      obtain ⟨parts, q1, q2⟩ := ih outs' (fun y hy => hg y (by simp [hy])) (mapE_ok.2 h2)
      refine ⟨(m, fun a => ix.map (fun t => (t, [G a t]))) :: parts, .cons ⟨ix, fun a => ix.map (G a), p1, ?_, p4⟩ q1, ?_⟩
      · intro a ha
        refine ⟨p3 a ha, ?_⟩
        simp only [List.map_map]
        exact (zip_map_self _ _).symm
      · rw [List.map_cons, ← q2, p2]

theorem epochs_trained {ρ σ : Type} (cfg : ExpCfg ρ) (hd : cfg.dropAllNans = true) (chunks : ChunkedBuilding → String → List RowFrame)
    (bs : List ChunkedBuilding) (hb : ∀ b ∈ bs, GoodChunks cfg.appliances b (chunks b)) (n : Nat) (c c' : Clf σ)
    (h : epochLoop cfg bs (List.range n) c = .ok c') : TrainedInChunks cfg bs chunks n c c' := by
  constructor
  · rintro rfl
    simp only [List.range_zero, epochLoop, Except.ok.injEq] at h
    exact h.symm
  · intro hn
    have hr : ∃ rs outs, loadedRounds cfg bs = .ok rs ∧
        mapE (fun r : RowFrame × List RowFrame => prepare cfg r.1 r.2) rs = .ok outs := by
      obtain ⟨k, rfl⟩ := Nat.exists_eq_succ_of_ne_zero hn
      rw [List.range_succ_eq_map] at h
      simp only [epochLoop] at h
      split at h
      · cases h
      rename_i c1 h1
      obtain ⟨rs, outs, h2, h3, _⟩ := trainChunkWise_run cfg 0 _ _ _ h1
      exact ⟨rs, outs, h2, h3⟩
    obtain ⟨rs, outs, hrs, ho⟩ := hr
    obtain ⟨h1, h2⟩ := epochLoop_run cfg bs rs outs hrs ho _ _ _ h
    have hrs' := loadedRounds_good cfg chunks bs rs hb hrs
    subst hrs'
    obtain ⟨parts, q1, q2⟩ := prepared_parts cfg hd (fun r : ChunkedBuilding × Nat => r.1.mains.getD r.2 [])
      (fun r a => (chunks r.1 a).getD r.2 []) (allRounds bs) outs (by
        intro x hx
        unfold allRounds at hx
        obtain ⟨b, hbm, hx⟩ := List.mem_flatMap.1 hx
        obtain ⟨k, hk, rfl⟩ := List.mem_map.1 hx
        exact goodChunks_round (hb b hbm) (List.mem_range.1 hk)) ho
    refine ⟨parts, q1, c'.state, ?_, h2⟩
    subst q2
    have he : ∀ i, epochCalls cfg i (parts.map (fun p => (p.1, cfg.appliances.map p.2))) =
        parts.map (fun p => ([p.1], cfg.appliances.map (fun a => (a, [p.2 a])), some i)) := by
      intro i
      unfold epochCalls
      rw [List.map_map]
      apply List.map_congr_left
      intro p _
      simp only [Function.comp, List.map_map]
      rw [zip_map_self]
      rfl
    simp only [he] at h1
    exact h1

theorem pretrained_iff {σ : Type} (c : Clf σ) : pretrained c = true ↔ ∃ p, c.loadModelPath = some (some p) ∧ p ≠ "" := by
  unfold pretrained
  split
  · rename_i p hp
    rw [hp]
    simp
  · rename_i hp
    constructor
    · intro h; cases h
    · rintro ⟨p, h1, h2⟩
      exact absurd h1 (hp p)

theorem chunking_iff (k : Option Nat) : chunking k = true ↔ ∃ n, k = some n ∧ 0 < n := by
  cases k with
  | none => simp [chunking]
  | some n => simp [chunking, Nat.pos_iff_ne_zero]

theorem trainOne_trained {ρ σ : Type} (cfg : ExpCfg ρ) (hd : cfg.dropAllNans = true) (chunkSize : Option Nat) (d : ExpData)
    (frames : ExpBuilding → String → RowFrame) (chunks : ChunkedBuilding → String → List RowFrame)
    (hw : ∀ b ∈ d.whole, GoodBuilding cfg.appliances b (frames b))
    (hc : ∀ b ∈ d.chunked, GoodChunks cfg.appliances b (chunks b)) (c c' : Clf σ) (h : trainOne cfg chunkSize d c = .ok c') :
    TrainedAs cfg chunkSize d frames chunks c c' := by
  have joint : fitJointly cfg d.whole c = .ok c' → TrainedOnce cfg d.whole frames c c' := by
    intro h
    unfold fitJointly at h
    split at h
    · cases h
    rename_i ms subs ht
    split at h
    · cases h
    rename_i s hs
    simp only [Except.ok.injEq] at h
    obtain ⟨parts, p1, rfl, rfl⟩ := C71_training cfg hd frames d.whole hw ms subs ht
    exact ⟨parts, p1, s, hs, h.symm⟩
  unfold trainOne at h
  unfold TrainedAs
  by_cases hp : pretrained c = true
  · rw [if_pos hp] at h
    exact ⟨fun _ => (Except.ok.inj h).symm, fun hn => absurd ((pretrained_iff c).1 hp) hn⟩
  rw [if_neg hp] at h
  refine ⟨fun h' => absurd ((pretrained_iff c).2 h') hp, fun _ => ?_⟩
  by_cases hk : chunking chunkSize = true
  · rw [if_pos hk] at h
    split at h
    · cases h
    · rename_i hcw
      refine ⟨fun _ => ?_, fun h' => absurd ⟨(chunking_iff _).1 hk, hcw⟩ h'⟩
      split at h
      · rename_i n hn
        refine ⟨fun m hm => ?_, fun hm => (by rw [hn] at hm; cases hm)⟩
        rw [hn] at hm
        cases hm
        exact epochs_trained cfg hd chunks d.chunked hc _ _ _ h
      · rename_i hn
        exact ⟨fun m hm => (by rw [hn] at hm; cases hm), fun _ => epochs_trained cfg hd chunks d.chunked hc _ _ _ h⟩
    · rename_i hcw
      exact ⟨fun h' => (by rw [hcw] at h'; simp at h'), fun _ => joint h⟩
  · rw [if_neg hk] at h
    exact ⟨fun h' => absurd ((chunking_iff _).2 h'.1) hk, fun _ => joint h⟩

theorem trainMethods_each {ρ σ : Type} (cfg : ExpCfg ρ) (chunkSize : Option Nat) (d : ExpData) :
    ∀ (ms : List (String × Nat)) (h h' : ClfHeap σ), (ms.map Prod.snd).Nodup → trainMethods cfg chunkSize d ms h = .ok h' →
    (∀ e ∈ ms, trainOne cfg chunkSize d (h e.2) = .ok (h' e.2)) ∧ ∀ i, i ∉ ms.map Prod.snd → h' i = h i := by
  intro ms
  induction ms with
  | nil =>
    intro h h' _ ht
    simp only [trainMethods, Except.ok.injEq] at ht
    subst ht
    simp
  | cons e ms ih =>
    obtain ⟨n, i⟩ := e
    intro h h' hnd ht
    simp only [List.map_cons, List.nodup_cons] at hnd
    simp only [trainMethods] at ht
    split at ht
    · cases ht
    rename_i c hc
    obtain ⟨h1, h2⟩ := ih _ _ hnd.2 ht
    constructor
    · intro e he
      rcases List.mem_cons.1 he with rfl | he
      · rw [h2 _ hnd.1]
        simp only [Function.update_self]
        exact hc
      · have hne : e.2 ≠ i := fun h' => hnd.1 (h' ▸ List.mem_map.2 ⟨e, he, rfl⟩)
        have := h1 e he
        rw [Function.update_of_ne hne] at this
        exact this
    · intro j hj
      simp only [List.map_cons, List.mem_cons, not_or] at hj
      rw [h2 j hj.2, Function.update_of_ne hj.1]

theorem trainMethods_total {ρ σ : Type} (cfg : ExpCfg ρ) (chunkSize : Option Nat) (d : ExpData) :
    ∀ (ms : List (String × Nat)) (h : ClfHeap σ), (ms.map Prod.snd).Nodup →
    (∀ e ∈ ms, ∃ c, trainOne cfg chunkSize d (h e.2) = .ok c) → ∃ h', trainMethods cfg chunkSize d ms h = .ok h' := by
  intro ms
  induction ms with
  | nil => intro h _ _; exact ⟨h, rfl⟩
  | cons e ms ih =>
    obtain ⟨n, i⟩ := e
    intro h hnd ht
    simp only [List.map_cons, List.nodup_cons] at hnd
    obtain ⟨c, hc⟩ := ht (n, i) (by simp)
    simp only [trainMethods, hc]
    apply ih _ hnd.2
    intro e he
    have hne : e.2 ≠ i := fun h' => hnd.1 (h' ▸ List.mem_map.2 ⟨e, he, rfl⟩)
    rw [Function.update_of_ne hne]
    exact ht e (by simp [he])

/-! ### Testing -/

/-- The same experiment with one method. -/
def oneMethod {ρ : Type} (cfg : ExpCfg ρ) (e : String × Method) : ExpCfg ρ := { cfg with methods := [e] }

theorem predictAll_split {ρ : Type} (cfg : ExpCfg ρ) (mains : RowFrame) (subs : List (String × RowFrame)) :
    ∀ (ms : List (String × Method)) (g g' : Option PFrame) (ps ps' : List (String × PColumns)), (ms.map Prod.fst).Nodup →
    predictAll cfg mains subs ms g ps = .ok (g', ps') →
    (∀ e ∈ ms, ∃ gf p, apiPredict cfg.siteOnly e.2 mains subs = .ok (gf, p) ∧ g' = some gf ∧ ps'.lookup e.1 = some p) ∧
    ∀ n, n ∉ ms.map Prod.fst → ps'.lookup n = ps.lookup n := by
  have hgt : ∀ (c : Method) (gf : PFrame) (p : PColumns), apiPredict cfg.siteOnly c mains subs = .ok (gf, p) →
      gtOverall subs = .ok gf := by
    intro c gf p h
    unfold apiPredict at h
    split at h
    · cases h
    split at h
    · cases h
    rename_i g hg
    split at h
    · cases h; exact hg
    · split at h
      · cases h
      · cases h; exact hg
  intro ms
  induction ms with
  | nil =>
    intro g g' ps ps' _ h
    simp only [predictAll, Except.ok.injEq, Prod.mk.injEq] at h
    obtain ⟨rfl, rfl⟩ := h
    simp
  | cons e ms ih =>
    obtain ⟨n, c⟩ := e
    intro g g' ps ps' hnd h
    simp only [List.map_cons, List.nodup_cons] at hnd
    simp only [predictAll] at h
    split at h
    · cases h
    rename_i gf p hp
    obtain ⟨h1, h2⟩ := ih _ _ _ _ hnd.2 h
    have hg' : g' = some gf := by
      cases ms with
      | nil =>
        simp only [predictAll, Except.ok.injEq, Prod.mk.injEq] at h
        exact h.1.symm
      | cons e' ms =>
        obtain ⟨gf', p', q1, q2, _⟩ := h1 e' (by simp)
        have e1 := hgt _ _ _ q1
        rw [hgt _ _ _ hp] at e1
        cases e1
        exact q2
    constructor
    · intro e he
      rcases List.mem_cons.1 he with rfl | he
      · refine ⟨gf, p, hp, hg', ?_⟩
        rw [h2 _ hnd.1, dictSet_lookup, if_pos rfl]
      · exact h1 e he
    · intro m hm
      simp only [List.map_cons, List.mem_cons, not_or] at hm
      rw [h2 m hm.2, dictSet_lookup, if_neg hm.1]

theorem predictAll_exists {ρ : Type} (cfg : ExpCfg ρ) (mains : RowFrame) (subs : List (String × RowFrame)) :
    ∀ (ms : List (String × Method)) (g : Option PFrame) (ps : List (String × PColumns)),
    (∀ e ∈ ms, ∃ r, apiPredict cfg.siteOnly e.2 mains subs = .ok r) → ∃ r, predictAll cfg mains subs ms g ps = .ok r := by
  intro ms
  induction ms with
  | nil => intro g ps _; exact ⟨_, rfl⟩
  | cons e ms ih =>
    obtain ⟨n, c⟩ := e
    intro g ps h
    obtain ⟨⟨gf, p⟩, hp⟩ := h (n, c) (by simp)
    simp only [predictAll, hp]
    exact ih _ _ (fun e he => h e (by simp [he]))

theorem metricTable_row {ρ : Type} (loss : List (Option Rat) → List (Option Rat) → Except Err ρ) (g : PFrame)
    (ps ps1 : List (String × PColumns)) (ms : List (String × Method)) (hnd : (ms.map Prod.fst).Nodup)
    (t : List (String × List (String × ρ))) (h : metricTable loss g ps ms = .ok t) (e : String × Method) (he : e ∈ ms)
    (hp : ps1.lookup e.1 = ps.lookup e.1) : metricTable loss g ps1 [e] = .ok (t.filter (fun r => r.1 == e.1)) := by
  unfold metricTable at h ⊢
  have h' := mapE_ok.1 h
  clear h
  induction h' with
  | nil => simp at he
  | @cons x y ms t h1 h2 ih =>
    simp only [List.map_cons, List.nodup_cons] at hnd
    have hy : y.1 = x.1 := by
      split at h1
      · cases h1
      split at h1
      · cases h1
      · cases h1; rfl
    have hnone : ∀ n, n ∉ ms.map Prod.fst → t.filter (fun r => r.1 == n) = [] := by
      intro n hn
      have hfst : t.map Prod.fst = ms.map Prod.fst := by
        clear ih hnd he
        induction h2 with
        | nil => rfl
        | @cons a b l l' q1 _ ih =>
          rw [List.map_cons, List.map_cons, ih (fun hh => hn (by simp only [List.map_cons]; exact List.mem_cons_of_mem _ hh))]
          congr 1
          split at q1
          · cases q1
          split at q1
          · cases q1
          · cases q1; rfl
      rw [List.filter_eq_nil_iff]
      intro r hr hrn
      apply hn
      rw [← hfst, ← (by simpa using hrn : r.1 = n)]
      exact List.mem_map.2 ⟨r, hr, rfl⟩
    rcases List.mem_cons.1 he with rfl | he
    · rw [List.filter_cons_of_pos (by simpa using hy), hnone _ hnd.1]
      simp only [mapE]
      rw [hp, h1]
    · have hne : ¬ (y.1 == e.1) = true := by
        rw [hy]
        intro hh
        exact hnd.1 ((by simpa using hh : x.1 = e.1) ▸ List.mem_map.2 ⟨e, he, rfl⟩)
      rw [List.filter_cons_of_neg (p := fun r : String × List (String × ρ) => r.1 == e.1) hne]
      exact ih hnd.2 he

theorem metricLoop_row {ρ : Type} (cfg : ExpCfg ρ) (hnd : (cfg.methods.map Prod.fst).Nodup) (key : String) (g : PFrame)
    (ps ps1 : List (String × PColumns)) (e : String × Method) (he : e ∈ cfg.methods) (hp : ps1.lookup e.1 = ps.lookup e.1) :
    ∀ (metrics : List String) (st st' : ExpState ρ), metricLoop cfg key g ps metrics st = .ok st' →
    metricLoop (oneMethod cfg e) key g ps1 metrics (onlyRow e.1 st) = .ok (onlyRow e.1 st') := by
  intro metrics
  induction metrics with
  | nil =>
    intro st st' h
    simp only [metricLoop, Except.ok.injEq] at h
    subst h
    rfl
  | cons m metrics ih =>
    intro st st' h
    simp only [metricLoop] at h ⊢
    have hl : (oneMethod cfg e).losses m = cfg.losses m := rfl
    rw [hl]
    cases hlm : cfg.losses m with
    | none =>
      rw [hlm] at h
      simp only at h ⊢
      exact ih _ _ h
    | some loss =>
      rw [hlm] at h
      simp only at h ⊢
      split at h
      · cases h
      rename_i t ht
      have h1 := metricTable_row loss g ps ps1 cfg.methods hnd t ht e he hp
      have hm : (oneMethod cfg e).methods = [e] := rfl
      rw [hm, h1]
      simp only
      have h2 := ih _ _ h
      have h3 : onlyRow e.1 { st with errors := st.errors ++ [t], keys := st.keys ++ [key ++ "_" ++ m] } =
          { onlyRow e.1 st with
            errors := (onlyRow e.1 st).errors ++ [t.filter (fun r => r.1 == e.1)]
            keys := (onlyRow e.1 st).keys ++ [key ++ "_" ++ m] } := by
        simp [onlyRow]
      rw [h3] at h2
      exact h2

theorem metricLoop_exists {ρ : Type} (cfg : ExpCfg ρ) (hnd : (cfg.methods.map Prod.fst).Nodup) (key : String) (g : PFrame)
    (ps : List (String × PColumns)) (ps1 : String → List (String × PColumns))
    (hp : ∀ e ∈ cfg.methods, (ps1 e.1).lookup e.1 = ps.lookup e.1) :
    ∀ (metrics : List String) (st : ExpState ρ),
    (∀ e ∈ cfg.methods, ∃ s, metricLoop (oneMethod cfg e) key g (ps1 e.1) metrics (onlyRow e.1 st) = .ok s) →
    ∃ st', metricLoop cfg key g ps metrics st = .ok st' := by
  intro metrics
  induction metrics with
  | nil => intro st _; exact ⟨st, rfl⟩
  | cons m metrics ih =>
    intro st h
    simp only [metricLoop] at h ⊢
    have hl : ∀ e, (oneMethod cfg e).losses m = cfg.losses m := fun _ => rfl
    simp only [hl] at h
    cases hlm : cfg.losses m with
    | none =>
      rw [hlm] at h
      simp only at h ⊢
      exact ih _ h
    | some loss =>
      rw [hlm] at h
      simp only at h ⊢
      have htab : ∃ t, metricTable loss g ps cfg.methods = .ok t := by
        unfold metricTable
        apply mapE_total
        intro e he
        obtain ⟨s, hs⟩ := h e he
        split at hs
        · cases hs
        rename_i t1 ht1
        have ht1' : metricTable loss g (ps1 e.1) [e] = .ok t1 := ht1
        unfold metricTable at ht1'
        simp only [mapE] at ht1'
        split at ht1'
        · cases ht1'
        rename_i y hy
        rw [hp e he] at hy
        exact ⟨y, hy⟩
      obtain ⟨t, ht⟩ := htab
      rw [ht]
      simp only
      apply ih
      intro e he
      obtain ⟨s, hs⟩ := h e he
      have h1 := metricTable_row loss g ps (ps1 e.1) cfg.methods hnd t ht e he (hp e he)
      have hm : (oneMethod cfg e).methods = [e] := rfl
      rw [hm, h1] at hs
      simp only at hs
      refine ⟨s, ?_⟩
      have h3 : onlyRow e.1 { st with errors := st.errors ++ [t], keys := st.keys ++ [key ++ "_" ++ m] } =
          { onlyRow e.1 st with
            errors := (onlyRow e.1 st).errors ++ [t.filter (fun r => r.1 == e.1)]
            keys := (onlyRow e.1 st).keys ++ [key ++ "_" ++ m] } := by
        simp [onlyRow]
      rw [h3]
      exact hs

theorem callPredict_row {ρ : Type} (cfg : ExpCfg ρ) (hnd : (cfg.methods.map Prod.fst).Nodup) (key : String) (mains : RowFrame)
    (st st' : ExpState ρ) (h : callPredict cfg key mains st = .ok st') (e : String × Method) (he : e ∈ cfg.methods) :
    callPredict (oneMethod cfg e) key mains (onlyRow e.1 st) = .ok (onlyRow e.1 st') := by
  unfold callPredict at h ⊢
  split at h
  · cases h
  rename_i g ps hps
  obtain ⟨h1, _⟩ := predictAll_split cfg mains st.subs cfg.methods none g [] ps hnd hps
  obtain ⟨gf, p, q1, rfl, q3⟩ := h1 e he
  have hone : predictAll (oneMethod cfg e) mains (onlyRow e.1 st).subs (oneMethod cfg e).methods none [] = .ok (some gf, [(e.1, p)]) := by
    show predictAll (oneMethod cfg e) mains st.subs [(e.1, e.2)] none [] = _
    simp only [predictAll]
    have : (oneMethod cfg e).siteOnly = cfg.siteOnly := rfl
    rw [this, q1]
    simp [dictSet]
  rw [hone]
  simp only at h ⊢
  have hso : (oneMethod cfg e).siteOnly = cfg.siteOnly := rfl
  rw [hso]
  by_cases hs : cfg.siteOnly = true
  · rw [if_pos hs] at h ⊢
    cases h; rfl
  rw [if_neg hs] at h ⊢
  split at h
  · rename_i hz
    rw [if_pos hz]
    cases h; rfl
  · rename_i hz
    rw [if_neg hz]
    exact metricLoop_row cfg hnd key gf ps _ e he (by rw [q3]; simp [List.lookup]) _ _ _ h

theorem callPredict_exists {ρ : Type} (cfg : ExpCfg ρ) (hnd : (cfg.methods.map Prod.fst).Nodup) (hne : cfg.methods ≠ []) (key : String)
    (mains : RowFrame) (st : ExpState ρ)
    (h : ∀ e ∈ cfg.methods, ∃ s, callPredict (oneMethod cfg e) key mains (onlyRow e.1 st) = .ok s) :
    ∃ st', callPredict cfg key mains st = .ok st' := by
  have hone : ∀ e ∈ cfg.methods, ∃ gf p, apiPredict cfg.siteOnly e.2 mains st.subs = .ok (gf, p) ∧
      predictAll (oneMethod cfg e) mains (onlyRow e.1 st).subs (oneMethod cfg e).methods none [] = .ok (some gf, [(e.1, p)]) := by
    intro e he
    obtain ⟨s, hs⟩ := h e he
    unfold callPredict at hs
    split at hs
    · cases hs
    rename_i g ps hps
    have hps' : predictAll (oneMethod cfg e) mains st.subs [(e.1, e.2)] none [] = .ok (g, ps) := hps
    simp only [predictAll] at hps'
    have hso : (oneMethod cfg e).siteOnly = cfg.siteOnly := rfl
    rw [hso] at hps'
    split at hps'
    · cases hps'
    rename_i gf p hp
    simp only [Except.ok.injEq, Prod.mk.injEq] at hps'
    obtain ⟨rfl, rfl⟩ := hps'
    refine ⟨gf, p, hp, ?_⟩
    rw [hps]
    simp [dictSet]
  obtain ⟨⟨g, ps⟩, hps⟩ := predictAll_exists cfg mains st.subs cfg.methods none [] (fun e he => by
    obtain ⟨gf, p, q, _⟩ := hone e he
    exact ⟨_, q⟩)
  obtain ⟨h1, _⟩ := predictAll_split cfg mains st.subs cfg.methods none g [] ps hnd hps
  obtain ⟨e0, he0⟩ := List.exists_mem_of_ne_nil _ hne
  obtain ⟨gf, _, _, rfl, _⟩ := h1 e0 he0
  unfold callPredict
  rw [hps]
  simp only
  by_cases hs : cfg.siteOnly = true
  · rw [if_pos hs]; exact ⟨_, rfl⟩
  rw [if_neg hs]
  by_cases hz : gf.index.length * gf.cols.length = 0
  · rw [if_pos hz]; exact ⟨_, rfl⟩
  rw [if_neg hz]
  have hlook : ∀ e ∈ cfg.methods, [(e.1, (ps.lookup e.1).getD [])].lookup e.1 = ps.lookup e.1 := by
    intro e he
    obtain ⟨_, p, _, _, q⟩ := h1 e he
    rw [q]
    simp [List.lookup]
  refine metricLoop_exists cfg hnd key gf ps (fun n => [(n, (ps.lookup n).getD [])]) hlook cfg.metrics st ?_
  intro e he
  obtain ⟨s, hs'⟩ := h e he
  obtain ⟨gf', p, q1, q2⟩ := hone e he
  obtain ⟨gf2, p2, r1, r2, r3⟩ := h1 e he
  rw [q1] at r1
  cases r1
  cases r2
  unfold callPredict at hs'
  rw [q2] at hs'
  have hso : (oneMethod cfg e).siteOnly = cfg.siteOnly := rfl
  simp only [hso] at hs'
  rw [if_neg hs, if_neg hz] at hs'
  refine ⟨s, ?_⟩
  simp only [r3, Option.getD_some]
  exact hs'

theorem testBuilding_row {ρ : Type} (cfg : ExpCfg ρ) (hnd : (cfg.methods.map Prod.fst).Nodup) (b : ExpBuilding)
    (st st' : ExpState ρ) (h : testBuilding cfg b st = .ok st') (e : String × Method) (he : e ∈ cfg.methods) :
    testBuilding (oneMethod cfg e) b (onlyRow e.1 st) = .ok (onlyRow e.1 st') := by
  unfold testBuilding at h ⊢
  have hs : (oneMethod cfg e).siteOnly = cfg.siteOnly := rfl
  have hd : (oneMethod cfg e).dropAllNans = cfg.dropAllNans := rfl
  have ha : (oneMethod cfg e).appliances = cfg.appliances := rfl
  have hp : ∀ m as, prepare (oneMethod cfg e) m as = prepare cfg m as := fun _ _ => rfl
  rw [hs, hd, ha]
  simp only [hp]
  split at h
  · rename_i hso
    rw [if_pos hso]
    split at h
    · cases h
    · rename_i m hm
      exact callPredict_row cfg hnd _ _ _ _ h e he
  · rename_i hso
    rw [if_neg hso]
    split at h
    · cases h
    rename_i apps happs
    split at h
    · cases h
    rename_i m as hm
    exact callPredict_row cfg hnd _ _ _ _ h e he

theorem testBuilding_exists {ρ : Type} (cfg : ExpCfg ρ) (hnd : (cfg.methods.map Prod.fst).Nodup) (hne : cfg.methods ≠ [])
    (b : ExpBuilding) (st : ExpState ρ) (h : ∀ e ∈ cfg.methods, ∃ s, testBuilding (oneMethod cfg e) b (onlyRow e.1 st) = .ok s) :
    ∃ st', testBuilding cfg b st = .ok st' := by
  obtain ⟨e0, he0⟩ := List.exists_mem_of_ne_nil _ hne
  have hs : ∀ e, (oneMethod cfg e).siteOnly = cfg.siteOnly := fun _ => rfl
  have hd : ∀ e, (oneMethod cfg e).dropAllNans = cfg.dropAllNans := fun _ => rfl
  have ha : ∀ e, (oneMethod cfg e).appliances = cfg.appliances := fun _ => rfl
  have hp : ∀ e m as, prepare (oneMethod cfg e) m as = prepare cfg m as := fun _ _ _ => rfl
  unfold testBuilding at h ⊢
  simp only [hs, hd, ha, hp] at h
  by_cases hso : cfg.siteOnly = true
  · simp only [if_pos hso] at h ⊢
    obtain ⟨s0, hs0⟩ := h e0 he0
    split at hs0
    · cases hs0
    rename_i m hm
    try rw [hm] at h
    try rw [hm]
    exact callPredict_exists cfg hnd hne _ _ _ h
  · simp only [if_neg hso] at h ⊢
    obtain ⟨s0, hs0⟩ := h e0 he0
    split at hs0
    · cases hs0
    rename_i apps happs
    try rw [happs] at h
    try rw [happs]
    try simp only at h ⊢
    split at hs0
    · cases hs0
    rename_i m as hm
    try rw [hm] at h
    try rw [hm]
    exact callPredict_exists cfg hnd hne _ _ _ h

theorem testJointly_row {ρ : Type} (cfg : ExpCfg ρ) (hnd : (cfg.methods.map Prod.fst).Nodup) (e : String × Method)
    (he : e ∈ cfg.methods) : ∀ (bs : List ExpBuilding) (st st' : ExpState ρ), testJointly cfg bs st = .ok st' →
    testJointly (oneMethod cfg e) bs (onlyRow e.1 st) = .ok (onlyRow e.1 st') := by
  intro bs
  induction bs with
  | nil =>
    intro st st' h
    simp only [testJointly, Except.ok.injEq] at h
    subst h
    rfl
  | cons b bs ih =>
    intro st st' h
    simp only [testJointly] at h ⊢
    split at h
    · cases h
    rename_i st1 h1
    rw [testBuilding_row cfg hnd b st st1 h1 e he]
    exact ih _ _ h

theorem testJointly_exists {ρ : Type} (cfg : ExpCfg ρ) (hnd : (cfg.methods.map Prod.fst).Nodup) (hne : cfg.methods ≠ []) :
    ∀ (bs : List ExpBuilding) (st : ExpState ρ),
    (∀ e ∈ cfg.methods, ∃ s, testJointly (oneMethod cfg e) bs (onlyRow e.1 st) = .ok s) → ∃ st', testJointly cfg bs st = .ok st' := by
  intro bs
  induction bs with
  | nil => intro st _; exact ⟨st, rfl⟩
  | cons b bs ih =>
    intro st h
    simp only [testJointly] at h ⊢
    obtain ⟨st1, h1⟩ := testBuilding_exists cfg hnd hne b st (fun e he => by
      obtain ⟨s, hs⟩ := h e he
      split at hs
      · cases hs
      · rename_i s' hs'; exact ⟨s', hs'⟩)
    rw [h1]
    apply ih
    intro e he
    obtain ⟨s, hs⟩ := h e he
    rw [testBuilding_row cfg hnd b st st1 h1 e he] at hs
    exact ⟨s, hs⟩

theorem testRounds_row {ρ : Type} (cfg : ExpCfg ρ) (hnd : (cfg.methods.map Prod.fst).Nodup) (e : String × Method)
    (he : e ∈ cfg.methods) (key : String) : ∀ (rs : List (RowFrame × List RowFrame)) (k : Nat) (st st' : ExpState ρ),
    testRounds cfg key rs k st = .ok st' → testRounds (oneMethod cfg e) key rs k (onlyRow e.1 st) = .ok (onlyRow e.1 st') := by
  intro rs
  induction rs with
  | nil =>
    intro k st st' h
    simp only [testRounds, Except.ok.injEq] at h
    subst h
    rfl
  | cons r rs ih =>
    obtain ⟨m, apps⟩ := r
    intro k st st' h
    have hp : ∀ m as, prepare (oneMethod cfg e) m as = prepare cfg m as := fun _ _ => rfl
    simp only [testRounds, hp] at h ⊢
    split at h
    · cases h
    rename_i m' as hm
    split at h
    · cases h
    rename_i st1 h1
    have h2 := callPredict_row cfg hnd _ _ _ _ h1 e he
    have h3 : onlyRow e.1 { st with subs := cfg.appliances.zip as } =
        { onlyRow e.1 st with subs := (oneMethod cfg e).appliances.zip as } := rfl
    rw [h3] at h2
    rw [h2]
    exact ih _ _ _ h

theorem testRounds_exists {ρ : Type} (cfg : ExpCfg ρ) (hnd : (cfg.methods.map Prod.fst).Nodup) (hne : cfg.methods ≠ [])
    (key : String) : ∀ (rs : List (RowFrame × List RowFrame)) (k : Nat) (st : ExpState ρ),
    (∀ e ∈ cfg.methods, ∃ s, testRounds (oneMethod cfg e) key rs k (onlyRow e.1 st) = .ok s) →
    ∃ st', testRounds cfg key rs k st = .ok st' := by
  obtain ⟨e0, he0⟩ := List.exists_mem_of_ne_nil _ hne
  intro rs
  induction rs with
  | nil => intro k st _; exact ⟨st, rfl⟩
  | cons r rs ih =>
    obtain ⟨m, apps⟩ := r
    intro k st h
    have hp : ∀ e m as, prepare (oneMethod cfg e) m as = prepare cfg m as := fun _ _ _ => rfl
    simp only [testRounds, hp] at h ⊢
    obtain ⟨s0, hs0⟩ := h e0 he0
    split at hs0
    · cases hs0
    rename_i m' as hm
    try rw [hm] at h
    try rw [hm]
    try simp only at h ⊢
    have h3 : ∀ e : String × Method, onlyRow e.1 { st with subs := cfg.appliances.zip as } =
        { onlyRow e.1 st with subs := (oneMethod cfg e).appliances.zip as } := fun _ => rfl
    obtain ⟨st1, h1⟩ := callPredict_exists cfg hnd hne (key ++ "_" ++ toString k) m' { st with subs := cfg.appliances.zip as }
      (fun e he => by
        obtain ⟨s, hs⟩ := h e he
        split at hs
        · cases hs
        · rename_i s' hs'; exact ⟨s', hs'⟩)
    rw [h1]
    apply ih
    intro e he
    obtain ⟨s, hs⟩ := h e he
    have h2 := callPredict_row cfg hnd _ _ _ _ h1 e he
    rw [h3] at h2
    rw [h2] at hs
    exact ⟨s, hs⟩

theorem testChunkWise_row {ρ : Type} (cfg : ExpCfg ρ) (hnd : (cfg.methods.map Prod.fst).Nodup) (e : String × Method)
    (he : e ∈ cfg.methods) : ∀ (bs : List ChunkedBuilding) (st st' : ExpState ρ), testChunkWise cfg bs st = .ok st' →
    testChunkWise (oneMethod cfg e) bs (onlyRow e.1 st) = .ok (onlyRow e.1 st') := by
  intro bs
  induction bs with
  | nil =>
    intro st st' h
    simp only [testChunkWise, Except.ok.injEq] at h
    subst h
    rfl
  | cons b bs ih =>
    intro st st' h
    have ha : (oneMethod cfg e).appliances = cfg.appliances := rfl
    simp only [testChunkWise, ha] at h ⊢
    split at h
    · cases h
    rename_i apps happs
    split at h
    · cases h
    rename_i st1 h1
    rw [testRounds_row cfg hnd e he b.key _ 0 st st1 h1]
    exact ih _ _ h

theorem testChunkWise_exists {ρ : Type} (cfg : ExpCfg ρ) (hnd : (cfg.methods.map Prod.fst).Nodup) (hne : cfg.methods ≠ []) :
    ∀ (bs : List ChunkedBuilding) (st : ExpState ρ),
    (∀ e ∈ cfg.methods, ∃ s, testChunkWise (oneMethod cfg e) bs (onlyRow e.1 st) = .ok s) →
    ∃ st', testChunkWise cfg bs st = .ok st' := by
  obtain ⟨e0, he0⟩ := List.exists_mem_of_ne_nil _ hne
  intro bs
  induction bs with
  | nil => intro st _; exact ⟨st, rfl⟩
  | cons b bs ih =>
    intro st h
    have ha : ∀ e, (oneMethod cfg e).appliances = cfg.appliances := fun _ => rfl
    simp only [testChunkWise, ha] at h ⊢
    obtain ⟨s0, hs0⟩ := h e0 he0
    split at hs0
    · cases hs0
    rename_i apps happs
    try rw [happs] at h
    try rw [happs]
    try simp only at h ⊢
    obtain ⟨st1, h1⟩ := testRounds_exists cfg hnd hne b.key (chunkRounds b.mains apps) 0 st (fun e he => by
      obtain ⟨s, hs⟩ := h e he
      split at hs
      · cases hs
      · rename_i s' hs'; exact ⟨s', hs'⟩)
    rw [h1]
    apply ih
    intro e he
    obtain ⟨s, hs⟩ := h e he
    rw [testRounds_row cfg hnd e he b.key _ 0 st st1 h1] at hs
    exact ⟨s, hs⟩

/-! ### C90 -/

/-- After a successful experiment every method has been trained as it should be, and no other object has changed. -/
theorem C90_training_partial {ρ σ : Type} (cfg : ExpCfg ρ) (hd : cfg.dropAllNans = true) (chunkSize : Option Nat)
    (methods : List (String × Nat)) (hobj : (methods.map Prod.snd).Nodup) (train test : ExpData)
    (frames : ExpBuilding → String → RowFrame) (chunks : ChunkedBuilding → String → List RowFrame)
    (hw : ∀ b ∈ train.whole, GoodBuilding cfg.appliances b (frames b))
    (hc : ∀ b ∈ train.chunked, GoodChunks cfg.appliances b (chunks b)) (h h' : ClfHeap σ) (st : ExpState ρ)
    (hrun : experiment cfg chunkSize methods train test h = .ok (h', st)) :
    (∀ e ∈ methods, TrainedAs cfg chunkSize train frames chunks (h e.2) (h' e.2)) ∧ ∀ i, i ∉ methods.map Prod.snd → h' i = h i := by
  unfold experiment at hrun
  split at hrun
  · cases hrun
  rename_i h1 ht
  simp only at hrun
  split at hrun
  · cases hrun
  simp only [Except.ok.injEq, Prod.mk.injEq] at hrun
  obtain ⟨rfl, _⟩ := hrun
  obtain ⟨p1, p2⟩ := trainMethods_each cfg chunkSize train methods h h1 hobj ht
  exact ⟨fun e he => trainOne_trained cfg hd chunkSize train frames chunks hw hc _ _ (p1 e he), p2⟩

/-- The reports are those of the trained methods. -/
theorem C90_reports {ρ σ : Type} (cfg : ExpCfg ρ) (hs : cfg.siteOnly = false) (hd : cfg.dropAllNans = true) (chunkSize : Option Nat)
    (methods : List (String × Nat)) (hnd : (methods.map Prod.fst).Nodup) (train test : ExpData)
    (frames : ExpBuilding → String → RowFrame) (chunks : ChunkedBuilding → String → List RowFrame)
    (hw : ∀ b ∈ test.whole, GoodBuilding cfg.appliances b (frames b))
    (hc : ∀ b ∈ test.chunked, GoodChunks cfg.appliances b (chunks b)) (h h' : ClfHeap σ) (st : ExpState ρ)
    (hcols : ∀ e ∈ methods, ∀ s m out, (h' e.2).predict s m = .ok out → (out.map Prod.fst).Nodup)
    (hrun : experiment cfg chunkSize methods train test h = .ok (h', st)) :
    ∃ cfg' : ExpCfg ρ, cfg' = { cfg with methods := methods.map (fun e => (e.1, (h' e.2).predict (h' e.2).state)) } ∧
      ∃ reports, st.keys = reports.flatten.map Prod.fst ∧ st.errors = reports.flatten.map Prod.snd ∧
      ((∃ k, chunkSize = some k ∧ 0 < k) →
        List.Forall₂ (fun (b : ChunkedBuilding) entries => ∃ rounds, entries = rounds.flatten ∧
          List.Forall₂ (fun (k : Nat) es => Report cfg' (b.key ++ "_" ++ toString k) (b.mains.getD k [])
            (fun a => (chunks b a).getD k []) es) (List.range b.mains.length) rounds) test.chunked reports) ∧
      ((¬ ∃ k, chunkSize = some k ∧ 0 < k) →
        List.Forall₂ (fun b entries => Report cfg' b.key b.mains (frames b) entries) test.whole reports) := by
  unfold experiment at hrun
  split at hrun
  · cases hrun
  rename_i h1 ht
  simp only at hrun
  split at hrun
  · cases hrun
  rename_i st1 hst
  simp only [Except.ok.injEq, Prod.mk.injEq] at hrun
  obtain ⟨rfl, rfl⟩ := hrun
  refine ⟨_, rfl, ?_⟩
  have hg : GoodMethods { cfg with methods := trainedMethods methods h1 } := by
    constructor
    · simp only [trainedMethods, List.map_map]
      exact hnd
    · intro n c hnc m out ho
      obtain ⟨e, he, heq⟩ := List.mem_map.1 hnc
      simp only [Prod.mk.injEq] at heq
      obtain ⟨_, rfl⟩ := heq
      exact hcols e he _ _ _ ho
  by_cases hk : chunking chunkSize = true
  · rw [if_pos hk] at hst
    obtain ⟨reports, q1, q2, q3⟩ := C72_each_round { cfg with methods := trainedMethods methods h1 } hs hd hg chunks test.chunked _ _ hc hst
    refine ⟨reports, by simpa using q2, by simpa using q3, ?_⟩
    exact ⟨fun _ => q1, fun h' => absurd ((chunking_iff _).1 hk) h'⟩
  · rw [if_neg hk] at hst
    obtain ⟨reports, q1, q2, q3⟩ := C71_each_building { cfg with methods := trainedMethods methods h1 } hs hd hg frames test.whole _ _ hw
      (by simp) hst
    refine ⟨reports, by simpa using q2, by simpa using q3, ?_⟩
    exact ⟨fun h' => absurd ((chunking_iff _).2 h') hk, fun _ => q1⟩

/-- A method gets the same training and the same row in every table when it runs alone. -/
theorem C90_alone_partial {ρ σ : Type} (cfg : ExpCfg ρ) (chunkSize : Option Nat) (methods : List (String × Nat))
    (hnd : (methods.map Prod.fst).Nodup) (hobj : (methods.map Prod.snd).Nodup) (train test : ExpData) (h h' : ClfHeap σ)
    (st : ExpState ρ) (hrun : experiment cfg chunkSize methods train test h = .ok (h', st)) (e : String × Nat) (he : e ∈ methods) :
    ∃ h1, experiment cfg chunkSize [e] train test h = .ok (h1, onlyRow e.1 st) ∧ h1 e.2 = h' e.2 := by
  unfold experiment at hrun
  split at hrun
  · cases hrun
  rename_i h2 ht
  simp only at hrun
  split at hrun
  · cases hrun
  rename_i st1 hst
  simp only [Except.ok.injEq, Prod.mk.injEq] at hrun
  obtain ⟨rfl, rfl⟩ := hrun
  obtain ⟨p1, _⟩ := trainMethods_each cfg chunkSize train methods h h2 hobj ht
  refine ⟨Function.update h e.2 (h2 e.2), ?_, by simp⟩
  unfold experiment
  have h3 : trainMethods cfg chunkSize train [e] h = .ok (Function.update h e.2 (h2 e.2)) := by
    show trainMethods cfg chunkSize train [(e.1, e.2)] h = _
    simp only [trainMethods, p1 e he]
  rw [h3]
  simp only
  have h4 : trainedMethods [e] (Function.update h e.2 (h2 e.2)) = [(e.1, (h2 e.2).predict (h2 e.2).state)] := by
    simp [trainedMethods]
  rw [h4]
  have hmem : (e.1, (h2 e.2).predict (h2 e.2).state) ∈ trainedMethods methods h2 := List.mem_map.2 ⟨e, he, rfl⟩
  have hnd' : ((trainedMethods methods h2).map Prod.fst).Nodup := by
    simp only [trainedMethods, List.map_map]
    exact hnd
  by_cases hk : chunking chunkSize = true
  · rw [if_pos hk] at hst ⊢
    have := testChunkWise_row { cfg with methods := trainedMethods methods h2 } hnd' _ hmem test.chunked _ _ hst
    have this' : testChunkWise { cfg with methods := [(e.1, (h2 e.2).predict (h2 e.2).state)] } test.chunked ⟨[], [], []⟩ =
        .ok (onlyRow e.1 st1) := this
    rw [this']
  · rw [if_neg hk] at hst ⊢
    have := testJointly_row { cfg with methods := trainedMethods methods h2 } hnd' _ hmem test.whole _ _ hst
    have this' : testJointly { cfg with methods := [(e.1, (h2 e.2).predict (h2 e.2).state)] } test.whole ⟨[], [], []⟩ =
        .ok (onlyRow e.1 st1) := this
    rw [this']

/-- Methods that all work alone work together. -/
theorem C90_together_partial {ρ σ : Type} (cfg : ExpCfg ρ) (chunkSize : Option Nat) (methods : List (String × Nat)) (hne : methods ≠ [])
    (hnd : (methods.map Prod.fst).Nodup) (hobj : (methods.map Prod.snd).Nodup) (train test : ExpData) (h : ClfHeap σ)
    (hall : ∀ e ∈ methods, ∃ r, experiment cfg chunkSize [e] train test h = .ok r) :
    ∃ r, experiment cfg chunkSize methods train test h = .ok r := by
  have hone : ∀ e ∈ methods, ∃ c, trainOne cfg chunkSize train (h e.2) = .ok c ∧
      ∃ s, (if chunking chunkSize then testChunkWise { cfg with methods := [(e.1, c.predict c.state)] } test.chunked ⟨[], [], []⟩
        else testJointly { cfg with methods := [(e.1, c.predict c.state)] } test.whole ⟨[], [], []⟩) = .ok s := by
    intro e he
    obtain ⟨r, hr⟩ := hall e he
    unfold experiment at hr
    split at hr
    · cases hr
    rename_i h1 ht
    have ht' : trainMethods cfg chunkSize train [(e.1, e.2)] h = .ok h1 := ht
    simp only [trainMethods] at ht'
    split at ht'
    · cases ht'
    rename_i c hc
    simp only [Except.ok.injEq] at ht'
    subst ht'
    refine ⟨c, hc, ?_⟩
    simp only at hr
    have h4 : trainedMethods [e] (Function.update h e.2 c) = [(e.1, c.predict c.state)] := by
      simp [trainedMethods]
    rw [h4] at hr
    split at hr
    · cases hr
    · rename_i s hs; exact ⟨s, hs⟩
  obtain ⟨h2, ht⟩ := trainMethods_total cfg chunkSize train methods h hobj (fun e he => by
    obtain ⟨c, hc, _⟩ := hone e he
    exact ⟨c, hc⟩)
  obtain ⟨p1, _⟩ := trainMethods_each cfg chunkSize train methods h h2 hobj ht
  have hnd' : ((trainedMethods methods h2).map Prod.fst).Nodup := by
    simp only [trainedMethods, List.map_map]
    exact hnd
  have hne' : trainedMethods methods h2 ≠ [] := by
    simpa [trainedMethods] using hne
  have hone' : ∀ m ∈ trainedMethods methods h2, ∃ s, (if chunking chunkSize then
      testChunkWise { cfg with methods := [m] } test.chunked ⟨[], [], []⟩
      else testJointly { cfg with methods := [m] } test.whole ⟨[], [], []⟩) = .ok s := by
    intro m hm
    obtain ⟨e, he, rfl⟩ := List.mem_map.1 hm
    obtain ⟨c, hc, hs⟩ := hone e he
    rw [p1 e he] at hc
    cases hc
    exact hs
  unfold experiment
  rw [ht]
  simp only
  by_cases hk : chunking chunkSize = true
  · simp only [if_pos hk] at hone' ⊢
    obtain ⟨s, hs⟩ := testChunkWise_exists { cfg with methods := trainedMethods methods h2 } hnd' hne' test.chunked ⟨[], [], []⟩ hone'
    rw [hs]
    exact ⟨_, rfl⟩
  · simp only [if_neg hk] at hone' ⊢
    obtain ⟨s, hs⟩ := testJointly_exists { cfg with methods := trainedMethods methods h2 } hnd' hne' test.whole ⟨[], [], []⟩ hone'
    rw [hs]
    exact ⟨_, rfl⟩

/-! ### The methods of the repository cannot be trained in chunks -/

theorem trainChunkWise_never {ρ σ : Type} (cfg : ExpCfg ρ) (i : Nat) : ∀ (bs : List ChunkedBuilding) (c c' : Clf σ),
    (∀ s ms subs, ∃ e, c.fit c.nEpochs s ms subs (some i) = .error e) → trainChunkWise cfg i bs c = .ok c' →
    c' = c ∧ ∀ b ∈ bs, b.mains = [] := by
  intro bs
  induction bs with
  | nil =>
    intro c c' _ h
    simp only [trainChunkWise, Except.ok.injEq] at h
    exact ⟨h.symm, by simp⟩
  | cons b bs ih =>
    intro c c' hf h
    simp only [trainChunkWise] at h
    split at h
    · cases h
    rename_i apps _
    split at h
    · cases h
    rename_i c1 h1
    cases hm : b.mains with
    | nil =>
      rw [hm] at h1
      simp only [chunkRounds, fitRounds, Except.ok.injEq] at h1
      subst h1
      obtain ⟨h2, h3⟩ := ih _ _ hf h
      refine ⟨h2, ?_⟩
      intro b' hb'
      rcases List.mem_cons.1 hb' with rfl | hb'
      · exact hm
      · exact h3 b' hb'
    | cons m ms =>
      rw [hm] at h1
      simp only [chunkRounds, fitRounds] at h1
      split at h1
      · cases h1
      rename_i m' as _
      obtain ⟨e, he⟩ := hf c.state [m'] (cfg.appliances.zip (as.map (fun f => [f])))
      rw [he] at h1
      cases h1

theorem trainOne_never {ρ σ : Type} (cfg : ExpCfg ρ) (k : Nat) (hk : 0 < k) (d : ExpData) (c c' : Clf σ)
    (hp : ¬ ∃ p, c.loadModelPath = some (some p) ∧ p ≠ "") (hc : c.chunkWise = some true) (hn : c.nEpochs = none)
    (hf : ∀ s ms subs, ∃ e, c.fit none s ms subs (some 0) = .error e) (h : trainOne cfg (some k) d c = .ok c') :
    ∀ b ∈ d.chunked, b.mains = [] := by
  unfold trainOne at h
  rw [if_neg (fun h' => hp ((pretrained_iff c).1 h')), if_pos ((chunking_iff _).2 ⟨k, rfl, hk⟩), hc] at h
  simp only [hn] at h
  have hr : List.range 1 = [0] := rfl
  rw [hr] at h
  simp only [epochLoop] at h
  split at h
  · cases h
  rename_i c1 h1
  exact (trainChunkWise_never cfg 0 d.chunked c c1 (by rw [hn]; exact hf) h1).2

theorem hartPair_zero (minTol percentTol large : Rat) (ts : List Transition) :
    (hartPair ⟨0, minTol, percentTol, large⟩ ts).pairs = [] := by
  unfold hartPair
  have key : ∀ (ts : List Transition) (s : HartBuf), s = ⟨[], []⟩ →
      ts.foldl (hartStep ⟨0, minTol, percentTol, large⟩) s = ⟨[], []⟩ := by
    intro ts
    induction ts with
    | nil => intro s h; exact h
    | cons t ts ih =>
      rintro s rfl
      rw [List.foldl_cons]
      apply ih
      unfold hartStep
      have : addTransition ⟨0, minTol, percentTol, large⟩ [] t = [] := by simp [addTransition]
      simp [cleanBuffer, this, pairTransitions]
  rw [key ts _ rfl]

/-- With `chunk_size`, a `Mean` or `Hart85` object (which train in chunks unless told otherwise) or an `FHMMExact` object that is to
train in chunks makes the experiment fail as soon as there is a chunk to train on: `partial_fit` gets the number of the epoch as a
third argument, which is one too many for `Mean` and `FHMMExact`, and which `Hart85` takes for the size of its buffer, so that it pairs
nothing and has nothing to cluster. -/
theorem C90_chunks_counterexample {ρ γ : Type} (cfg : ExpCfg ρ) (k : Nat) (hk : 0 < k) (d : ExpData)
    (hd : ∃ b ∈ d.chunked, b.mains ≠ []) (lib : HmmLib γ) (numOfStates : Int) (threshold noise minTol percentTol large : Rat)
    (meanShift : List Rat → Except Err (List Rat)) (hms : ∃ e, meanShift [] = .error e) :
    (∀ (c c' : Clf MeanModel), c.loadModelPath = some none → c.chunkWise = some true → c.nEpochs = none →
      c.fit = (fun _ s _ subs third => meanPartialFit s subs third) → trainOne cfg (some k) d c ≠ .ok c') ∧
    (∀ (c c' : Clf (Fhmm γ)), c.loadModelPath = some none → c.chunkWise = some true → c.nEpochs = none →
      c.fit = (fun _ s ms subs third => fhmmFitThird lib numOfStates s ms subs third) → trainOne cfg (some k) d c ≠ .ok c') ∧
    (∀ (c c' : Clf HartModel), c.loadModelPath = some none → c.chunkWise = some true → c.nEpochs = none →
      c.fit = (fun _ _ ms subs third => hartFitThird threshold noise minTol percentTol large meanShift ms subs third) →
      trainOne cfg (some k) d c ≠ .ok c') := by
  obtain ⟨b, hb, hne⟩ := hd
  refine ⟨?_, ?_, ?_⟩
  · intro c c' h1 h2 h3 h4 h
    refine hne (trainOne_never cfg k hk d c c' (by rw [h1]; simp) h2 h3 ?_ h b hb)
    intro s ms subs
    rw [h4]
    exact ⟨_, rfl⟩
  · intro c c' h1 h2 h3 h4 h
    refine hne (trainOne_never cfg k hk d c c' (by rw [h1]; simp) h2 h3 ?_ h b hb)
    intro s ms subs
    rw [h4]
    exact ⟨_, rfl⟩
  · intro c c' h1 h2 h3 h4 h
    refine hne (trainOne_never cfg k hk d c c' (by rw [h1]; simp) h2 h3 ?_ h b hb)
    intro s ms subs
    rw [h4]
    simp only [hartFitThird, hartFit]
    split
    · exact ⟨_, rfl⟩
    split
    · exact ⟨_, rfl⟩
    split
    · exact ⟨_, rfl⟩
    have hz : (some 0 : Option Nat).getD 20 = 0 := rfl
    rw [hz, hartPair_zero]
    obtain ⟨e, he⟩ := hms
    simp only [List.map_nil, he]
    exact ⟨_, rfl⟩

/-! ### Examples -/

/-- A method that records the third argument of every call, and the readings of the first appliance; it predicts how often it has
been trained. -/
def exRecorder (chunkWise : Bool) (epochs : Option Int) : Clf (List (Option Nat × List Int)) :=
  { loadModelPath := none, chunkWise := some chunkWise, nEpochs := epochs, state := [],
    fit := fun _ s _ subs third => .ok (s ++ [(third, (subs.headD ("", [])).2.flatten.map Prod.fst)]),
    predict := fun s m => .ok [("a", m.map (fun _ => some (s.length : Rat)))] }

/-- Two buildings, whole and in chunks. -/
def exRunData : ExpData :=
  { whole := [exHouse 1, exHouse 3],
    chunked := [⟨"d_1", [[(0, [some 1]), (1, [some 2])], [(2, [some 5])]], fun _ => .ok [[(0, [none]), (1, [some 2])], [(2, [some 5])]]⟩] }

def exHeap (chunkWise : Bool) (epochs : Option Int) : ClfHeap (List (Option Nat × List Int)) := fun _ => exRecorder chunkWise epochs

/-- Two epochs of two chunks each; the other method is trained jointly. -/
example : (experiment (exCfg true false) (some 2) [("m", 0), ("n", 1)] exRunData exRunData
      (fun i => exRecorder (i == 0) (some 2))).map (fun r => [(r.1 0).state, (r.1 1).state]) =
    .ok [[(some 0, [1]), (some 0, [2]), (some 1, [1]), (some 1, [2])], [(none, [1, 2, 1, 2])]] := by
  decide +kernel

example : (experiment (exCfg true false) (some 2) [("m", 0), ("n", 1)] exRunData exRunData
      (fun i => exRecorder (i == 0) (some 2))).map (fun r => [(r.1 0).nEpochs, (r.1 1).nEpochs]) = .ok [some 1, some 2] := by
  decide +kernel

example : (experiment (exCfg true false) (some 2) [("m", 0), ("n", 1)] exRunData exRunData
      (fun i => exRecorder (i == 0) (some 2))).map (fun r => (r.2.keys, r.2.errors)) =
    .ok (["d_1_0_mae", "d_1_1_mae"], [[("m", [("a", 2)]), ("n", [("a", 1)])], [("m", [("a", 1)]), ("n", [("a", 4)])]]) := by
  decide +kernel

example : (∀ b ∈ exRunData.whole, GoodBuilding (exCfg true false).appliances b (fun _ => [(1, [some 2]), (2, [some 5])])) ∧
    ∀ b ∈ exRunData.chunked, GoodChunks (exCfg true false).appliances b (fun _ => [[(0, [none]), (1, [some 2])], [(2, [some 5])]]) := by
  constructor
  · intro b hb
    simp only [exRunData, List.mem_cons, List.not_mem_nil, or_false] at hb
    rcases hb with rfl | rfl <;> refine ⟨by simp [UniqueIndex, exHouse], ?_⟩ <;> intro a _ <;>
      exact ⟨⟨by simp [UniqueIndex], by simp⟩, rfl⟩
  · intro b hb
    simp only [exRunData, List.mem_cons, List.not_mem_nil, or_false] at hb
    subst hb
    refine ⟨by simp [UniqueIndex], ?_⟩
    intro a _
    refine ⟨rfl, ?_⟩
    intro f hf
    simp only [List.mem_cons, List.not_mem_nil, or_false] at hf
    rcases hf with rfl | rfl <;> exact ⟨by simp [UniqueIndex], by simp⟩

/-- `Mean` with its default settings: trained without `chunk_size`, a `TypeError` with it. -/
example :
    (trainOne (exCfg true false) none exRunData (meanClf true (fun _ _ => .ok []))).map Clf.state = .ok [("a", ⟨14, 4⟩)] ∧
    (trainOne (exCfg true false) (some 2) exRunData (meanClf true (fun _ _ => .ok []))).map Clf.state = .error .typeError := by
  constructor <;> decide +kernel

example : ∃ b ∈ exRunData.chunked, b.mains ≠ [] := ⟨_, List.mem_singleton.2 rfl, by simp⟩

/-- The same object under two names is trained twice, and the second time for one epoch only: alone it is trained for two epochs, with
the second name for three, and both rows of the report change. -/
theorem C90_shared_counterexample :
    (experiment (exCfg true false) (some 2) [("m", 0)] exRunData exRunData (exHeap true (some 2))).map
      (fun r => ((r.1 0).state.length, r.2.errors)) = .ok (4, [[("m", [("a", 2)])], [("m", [("a", 1)])]]) ∧
    (experiment (exCfg true false) (some 2) [("m", 0), ("n", 0)] exRunData exRunData (exHeap true (some 2))).map
      (fun r => ((r.1 0).state.length, r.2.errors)) =
      .ok (6, [[("m", [("a", 4)]), ("n", [("a", 4)])], [("m", [("a", 1)]), ("n", [("a", 1)])]]) := by
  decide +kernel

end Nilmtk
