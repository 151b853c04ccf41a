import Verif.Model.StoredExperiment
import Verif.Props.StoredLoad
import Verif.Props.ExperimentRun
import Verif.Props.Mean
import Verif.Props.HartDisagg
/-!
C121: from the files to the errors of an experiment.
-/
namespace Nilmtk
open TF

/-! ### Specification -/

/-- The readings that a building has: of its site meters and of its appliances, and the window of the experiment. -/
structure HomeData where
  mains : List (HomeMeter × List (Int × Rat))
  app : String → HomeMeter × List (Int × Rat)
  start : Option Int
  stop : Option Int

/-- The readings of a meter in the window. -/
def HomeData.within (d : HomeData) (l : List (Int × Rat)) : List (Int × Rat) := l.filter (fun r => fromUntil d.start d.stop r.1)

/-- The building has these readings, at least two of each meter in the window, and they fit into one chunk. -/
structure GoodHome (k : LoadCfg) (sp : Nat) (names : List String) (b : StoredBuilding) (d : HomeData) : Prop where
  window : b.window = mk' d.start d.stop
  order : ∀ x y, d.start = some x → d.stop = some y → x < y
  meters : b.mains = d.mains.map Prod.fst
  some : d.mains ≠ []
  mains : ∃ ac, ∀ m ∈ d.mains, HoldsPower m.1 k.mains ac m.2 ∧
    convertToCols m.1.stored.measurements (.one "power") k.mains none = .ok [("power", ac)]
  apps : ∀ n ∈ names, b.appliance n = .ok (d.app n).1 ∧ ∃ ac, HoldsPower (d.app n).1 k.appliance ac (d.app n).2
  many : ∀ m, m ∈ d.mains ∨ (∃ n ∈ names, m = d.app n) → 2 ≤ (d.within m.2).length ∧ ((d.within m.2).length : Int) ≤ k.cs + 1
  short : ∀ m ∈ d.mains, ∀ m' ∈ d.mains, spanEnd d.stop m'.2 - spanStart d.start m.2 ≤ (2 ^ 28 : Nat) * (sp * 1000000000)

/-- The frame shows the resampled readings of the meter in the window. -/
def ShowsMeter (d : HomeData) (sp : Nat) (m : HomeMeter × List (Int × Rat)) (f : RowFrame) : Prop :=
  ∃ out, Resampled (sp * 1000000000) (m.1.carried sp) (asRows (d.within m.2)) out ∧ f = out.map (fun r => (r.1, [r.2]))

/-- The frame shows the sum of the resampled readings of the meters from when the first one starts until the last one ends. -/
def ShowsSum (d : HomeData) (sp : Nat) (f : RowFrame) : Prop :=
  ∃ (S E g : Int) (index : List Int) (outs : HomeMeter × List (Int × Rat) → List (Int × Option Rat)),
    IsLeast {x | ∃ m ∈ d.mains, x = spanStart d.start m.2} S ∧ IsGreatest {x | ∃ m ∈ d.mains, x = spanEnd d.stop m.2} E ∧
    FirstBin (sp * 1000000000) S g ∧ IsGrid (sp * 1000000000) g E index ∧
    (∀ m ∈ d.mains, (2 ≤ (inPiece d.start d.stop S E m.2).length →
        Resampled (sp * 1000000000) (m.1.carried sp) (asRows (inPiece d.start d.stop S E m.2)) (outs m)) ∧
      ((inPiece d.start d.stop S E m.2).length < 2 → outs m = [])) ∧
    f = index.map (fun t => (t, [sumOf (d.mains.flatMap (fun m => readingsAt (outs m) t))]))

/-- What is loaded of a building: the mains, and each appliance. A single site meter is loaded itself. -/
structure Loaded (d : HomeData) (sp : Nat) (names : List String) (mains : RowFrame) (frames : String → RowFrame) : Prop where
  one : ∀ m, d.mains = [m] → ShowsMeter d sp m mains
  several : 2 ≤ d.mains.length → ShowsSum d sp mains
  apps : ∀ n ∈ names, ShowsMeter d sp (d.app n) (frames n)

/-- The readings of the appliances at the instants at which the mains and all appliances have a reading. -/
def CommonReadings (names : List String) (mains : RowFrame) (frames : String → RowFrame) (ix : List Int)
    (readings : String → List Rat) : Prop :=
  CommonIndex mains (names.map frames) ix ∧ ∀ n ∈ names, ReadsAt (frames n) ix ((readings n).map some)

/-- What `Mean` predicts after training on these readings: their sum without its fraction, over their number. -/
def IsTrainedMean (readings : List Rat) (v : Rat) : Prop := ∃ n : Int, WholePart readings.sum n ∧ v = n / readings.length

/-- The errors reported for a building: for each metric that exists the loss of each appliance, between its readings at the common
instants and the constant prediction. -/
def ConstantReport {ρ : Type} (cfg : ExpCfg ρ) (name key : String) (ix : List Int) (truth : String → List Rat) (level : String → Rat)
    (entries : List (String × List (String × List (String × ρ)))) : Prop :=
  (ix = [] → entries = []) ∧
  (ix ≠ [] → List.Forall₂ (fun metric e => e.1 = key ++ "_" ++ metric ∧ ∃ loss row, cfg.losses metric = some loss ∧ e.2 = [(name, row)] ∧
      (row.map Prod.fst).Nodup ∧ (∀ a, a ∈ row.map Prod.fst ↔ a ∈ cfg.appliances) ∧
      ∀ a ∈ cfg.appliances, ∃ r, loss ((truth a).map some) (List.replicate ix.length (some (level a))) = .ok r ∧ row.lookup a = some r)
    (cfg.metrics.filter (fun x => (cfg.losses x).isSome)) entries)

/-! ### Loading -/

theorem resampled_unique {n limit : Int} (hn : 0 < n) {rows out : List (Int × Option Rat)} (h : Resampled n limit rows out) :
    OneColumn (out.map (fun r => (r.1, [r.2]))) := by
  constructor
  · unfold UniqueIndex
    rw [List.map_map]
    exact regular_nodup n hn rows _ h.index
  · intro r hr
    obtain ⟨x, -, rfl⟩ := List.mem_map.1 hr
    exact ⟨_, rfl⟩

theorem meterFrame_loaded {k : LoadCfg} {sp : Nat} (hk : k.samplePeriod = sp) (hsp : 0 < sp) (hcs : 0 < k.cs) {req : Req}
    {m : HomeMeter × List (Int × Rat)} {ac : String} (h : HoldsPower m.1 req ac m.2) (d : HomeData)
    (hab : ∀ x y, d.start = some x → d.stop = some y → x < y) (h2 : 2 ≤ (d.within m.2).length)
    (hle : ((d.within m.2).length : Int) ≤ k.cs + 1) :
    ∃ f, meterFrame k req (mk' d.start d.stop) m.1 = .ok ([("power", ac)], f) ∧ ShowsMeter d sp m f ∧ OneColumn f := by
  obtain ⟨out, tf, h3, -, h4⟩ := C120_meter_partial h sp hsp d.start d.stop hab k.cs hcs h2
  refine ⟨out.map (fun r => (r.1, [r.2])), ?_, ⟨out, h4 hle, rfl⟩, resampled_unique (by omega) (h4 hle)⟩
  unfold meterFrame
  rw [hk, h3]
  rfl

theorem one_taken {f : RowFrame} (h : OneColumn f) : f.map (fun r => (r.1, r.2.take 1)) = f := by
  conv_rhs => rw [← List.map_id f]
  apply List.map_congr_left
  intro r hr
  obtain ⟨v, hv⟩ := h.2 r hr
  obtain ⟨t, vs⟩ := r
  simp only at hv
  subst hv
  rfl

theorem nodup_single {α : Type} {l : List α} {x : α} (hn : l.Nodup) (h : ∀ y, y ∈ l ↔ y = x) : l = [x] := by
  match l, hn, h with
  | [], _, h => exact absurd ((h x).2 rfl) (by simp)
  | [y], _, h => rw [(h y).1 (by simp)]
  | y :: z :: l, hn, h =>
    have h1 := (h y).1 (by simp)
    have h2 := (h z).1 (by simp)
    rw [List.nodup_cons] at hn
    exact absurd (by rw [h1, h2]; simp) hn.1

theorem frame_one_column (index : List Int) (v : Int → Option Rat) (c : LChunk) (hi : c.index = index) (hc : c.cells = [index.map v]) :
    c.frame = index.map (fun t => (t, [v t])) := by
  unfold LChunk.frame
  rw [hi, hc]
  apply List.ext_getElem
  · simp
  · intro i h1 h2
    simp only [List.length_map, List.length_zipIdx] at h1 h2
    simp [h2]

theorem group_loaded {k : LoadCfg} {sp : Nat} (hk : k.samplePeriod = sp) (hsp : 0 < sp) (hcs : 0 < k.cs) {names : List String}
    {b : StoredBuilding} {d : HomeData} (h : GoodHome k sp names b d) :
    ∃ col f, nextFrame ((firstOf (loadHomeGroup (d.mains.map Prod.fst) (.one "power") k.mains k.samplePeriod none (mk' d.start d.stop) k.cs)).map
      (Option.map (fun c => (c.columns, c.frame)))) = .ok ([col], f) ∧ ShowsSum d sp f ∧ OneColumn f := by
  obtain ⟨ac, hm⟩ := h.mains
  obtain ⟨S, E, pieces, h1, h2, h3, h4, h5, h6, h7⟩ := C120_group_partial Prod.fst (fun _ => ac) Prod.snd k.mains d.mains h.some
    (fun m hx => (hm m hx).1) sp hsp d.start d.stop (fun m hx => (h.many m (Or.inl hx)).1) (2 ^ 28) (by norm_num) k.cs hcs
  have hlen : pieces.length = 1 := by
    apply h5
    obtain ⟨m, hx, hS⟩ := h1.1
    obtain ⟨m', hx', hE⟩ := h2.1
    rw [hS, hE]
    exact h.short m hx m' hx'
  obtain ⟨p, rfl⟩ := List.length_eq_one_iff.1 hlen
  obtain ⟨c, cs, ⟨s, e, hp, ⟨⟨g, hg, hgrid⟩, outs, ho, hcells⟩, hnd, hcol⟩, htail, hout⟩ := List.forall₂_cons_left_iff.1 h7
  rw [List.forall₂_nil_left_iff.1 htail] at hout
  have hse : s = S ∧ e = E := by
    cases h3 with
    | cons _ m _ _ _ hp' _ ht =>
      cases ht
      exact ⟨Option.some.inj (hp.2.2.1.symm.trans hp'.2.2.1), Option.some.inj (hp.2.2.2.symm.trans hp'.2.2.2)⟩
  obtain ⟨rfl, rfl⟩ := hse
  have hcols : c.columns = [("power", ac)] := by
    apply nodup_single hnd
    intro y
    rw [hcol]
    constructor
    · rintro ⟨m, hx, cols, h8, h9⟩
      rw [(hm m hx).2] at h8
      cases h8
      simpa using h9
    · rintro rfl
      obtain ⟨m, hx⟩ := List.exists_mem_of_ne_nil _ h.some
      exact ⟨m, hx, _, (hm m hx).2, by simp⟩
  rw [hcols] at hcells
  simp only [List.map_cons, List.map_nil, if_true] at hcells
  have hf := frame_one_column c.index _ c rfl hcells
  refine ⟨("power", ac), c.frame, ?_, ⟨s, e, g, c.index, outs, h1, h2, hg, hgrid, ?_, hf⟩, ?_⟩
  · have hl : loadHomeGroup (d.mains.map Prod.fst) (.one "power") k.mains k.samplePeriod none (mk' d.start d.stop) k.cs =
        loadHomeGroup (d.mains.map Prod.fst) (.one "power") k.mains sp (some ((2 ^ 28 : Nat) : Int)) (mk' d.start d.stop) k.cs := by
      rw [hk]
      rfl
    rw [hl]
    unfold firstOf
    rw [hout]
    simp only [Except.map, Option.map_some, nextFrame, hcols]
  · intro m hx
    obtain ⟨o1, o2⟩ := ho m hx
    refine ⟨?_, o2⟩
    intro h8
    have h9 := o1 h8
    rwa [List.take_of_length_le] at h9
    have h10 := (h.many m (Or.inl hx)).2
    have h11 : (inPiece d.start d.stop s e m.2).length ≤ (d.within m.2).length := by
      unfold inPiece HomeData.within
      rw [← List.countP_eq_length_filter, ← List.countP_eq_length_filter]
      exact List.countP_mono_left (fun x _ hx => by rw [Bool.and_eq_true] at hx; exact hx.1)
    show (inPiece d.start d.stop s e m.2).length ≤ _
    omega
  · rw [hf]
    constructor
    · unfold UniqueIndex
      rw [List.map_map]
      have := hgrid.1
      simp only [Function.comp_def, List.map_id']
      exact this.imp (fun h => by omega)
    · intro r hr
      obtain ⟨t, -, rfl⟩ := List.mem_map.1 hr
      exact ⟨_, rfl⟩

theorem mains_loaded {k : LoadCfg} {sp : Nat} (hk : k.samplePeriod = sp) (hsp : 0 < sp) (hcs : 0 < k.cs) {names : List String}
    {b : StoredBuilding} {d : HomeData} (h : GoodHome k sp names b d) :
    ∃ col f, mainsFrame k b.window b.mains = .ok ([col], f) ∧ OneColumn f ∧ (∀ m, d.mains = [m] → ShowsMeter d sp m f) ∧
      (2 ≤ d.mains.length → ShowsSum d sp f) := by
  rw [h.window, h.meters]
  match hd : d.mains, h.some with
  | [m], _ =>
    obtain ⟨ac, hm⟩ := h.mains
    have hx : m ∈ d.mains := by rw [hd]; simp
    obtain ⟨f, h1, h2, h3⟩ := meterFrame_loaded hk hsp hcs (hm m hx).1 d h.order (h.many m (Or.inl hx)).1 (h.many m (Or.inl hx)).2
    refine ⟨("power", ac), f, h1, h3, ?_, by simp⟩
    rintro m' ⟨⟩
    exact h2
  | m :: m' :: rest, _ =>
    obtain ⟨col, f, h1, h2, h3⟩ := group_loaded hk hsp hcs h
    rw [hd] at h1
    exact ⟨col, f, h1, h3, by simp, fun _ => h2⟩

/-- C121. What training and testing load of a building: the same frames, one column each, of the mains and of each appliance. -/
theorem C121_loaded_partial {k : LoadCfg} {sp : Nat} (hk : k.samplePeriod = sp) (hsp : 0 < sp) (hcs : 0 < k.cs) {names : List String}
    {b : StoredBuilding} {d : HomeData} (h : GoodHome k sp names b d) :
    ∃ mains frames, Loaded d sp names mains frames ∧
      (∃ eb, trainFrames k b = .ok eb ∧ eb.key = b.key ∧ eb.mains = mains ∧ GoodBuilding names eb frames) ∧
      (∃ eb, testFrames k b = .ok eb ∧ eb.key = b.key ∧ eb.mains = mains ∧ GoodBuilding names eb frames) := by
  obtain ⟨col, f, h1, h2, h3, h4⟩ := mains_loaded hk hsp hcs h
  have happ : ∀ n, ∃ c g, n ∈ names → applianceFrame k b n = .ok ([c], g) ∧ ShowsMeter d sp (d.app n) g ∧ OneColumn g := by
    intro n
    by_cases hn : n ∈ names
    · obtain ⟨h5, ac, h6⟩ := h.apps n hn
      have h7 := h.many (d.app n) (Or.inr ⟨n, hn, rfl⟩)
      obtain ⟨g, h8, h9, h10⟩ := meterFrame_loaded hk hsp hcs h6 d h.order h7.1 h7.2
      refine ⟨("power", ac), g, fun _ => ⟨?_, h9, h10⟩⟩
      unfold applianceFrame
      rw [h5, h.window]
      exact h8
    · exact ⟨("", ""), [], fun hc => absurd hc hn⟩
  choose c g hg using happ
  refine ⟨f, g, ⟨h3, h4, fun n hn => (hg n hn).2.1⟩, ⟨⟨b.key, f, fun a => thenE (applianceFrame k b a) firstColumn⟩, ?_, rfl, rfl, h2.1, ?_⟩,
    ⟨⟨b.key, f, fun a => (applianceFrame k b a).map Prod.snd⟩, ?_, rfl, rfl, h2.1, ?_⟩⟩
  · unfold trainFrames
    rw [h1]
    simp only [thenE, firstColumn, List.cons_ne_nil, if_false, one_taken h2]
  · intro a ha
    refine ⟨(hg a ha).2.2, ?_⟩
    simp only [(hg a ha).1, thenE, firstColumn, List.cons_ne_nil, if_false, one_taken (hg a ha).2.2]
  · unfold testFrames
    rw [h1]
  · intro a ha
    refine ⟨(hg a ha).2.2, ?_⟩
    simp only [(hg a ha).1]
    rfl

/-! ### The loops -/

theorem trainStored_eq {ρ : Type} (cfg : ExpCfg ρ) (k : LoadCfg) {bs : List StoredBuilding} {ebs : List ExpBuilding}
    (h : List.Forall₂ (fun b eb => trainFrames k b = .ok eb) bs ebs) (ms : List RowFrame) (subs : List (List RowFrame)) :
    trainStored cfg k bs ms subs = trainLoop cfg ebs ms subs := by
  induction h generalizing ms subs with
  | nil => rfl
  | cons hb _ ih =>
    simp only [trainStored, hb, trainLoop]
    cases mapE _ cfg.appliances with
    | error e => rfl
    | ok apps =>
      simp only
      cases prepare cfg _ apps with
      | error e => rfl
      | ok r => exact ih _ _

theorem testStored_eq {ρ : Type} (cfg : ExpCfg ρ) (k : LoadCfg) {bs : List StoredBuilding} {ebs : List ExpBuilding}
    (h : List.Forall₂ (fun b eb => testFrames k b = .ok eb) bs ebs) (st : ExpState ρ) :
    testStored cfg k bs st = testJointly cfg ebs st := by
  induction h generalizing st with
  | nil => rfl
  | cons hb _ ih =>
    simp only [testStored, hb, testJointly]
    cases testBuilding cfg _ st with
    | error e => rfl
    | ok st' => exact ih st'

theorem fitStored_eq {ρ σ : Type} (cfg : ExpCfg ρ) (k : LoadCfg) {bs : List StoredBuilding} {ebs : List ExpBuilding}
    (h : List.Forall₂ (fun b eb => trainFrames k b = .ok eb) bs ebs) (c : Clf σ) : fitStored cfg k bs c = fitJointly cfg ebs c := by
  unfold fitStored fitJointly trainJointly
  rw [trainStored_eq cfg k h]
  cases trainLoop cfg ebs [] (cfg.appliances.map (fun _ => [])) with
  | error e => rfl
  | ok r => rfl

/-- What a building has loaded for an appliance. -/
def loadedFrame (eb : ExpBuilding) (a : String) : RowFrame := (eb.load a).toOption.getD []

/-- The buildings as loaded. -/
theorem all_loaded {k : LoadCfg} {sp : Nat} (hk : k.samplePeriod = sp) (hsp : 0 < sp) (hcs : 0 < k.cs) {names : List String}
    {ι : Type} (B : ι → StoredBuilding) (D : ι → HomeData) (bs : List ι) (h : ∀ b ∈ bs, GoodHome k sp names (B b) (D b)) :
    ∃ tr te : List ExpBuilding,
      List.Forall₂ (fun b eb => trainFrames k (B b) = .ok eb) bs tr ∧ List.Forall₂ (fun b eb => testFrames k (B b) = .ok eb) bs te ∧
      List.Forall₂ (fun b eb => eb.key = (B b).key ∧ Loaded (D b) sp names eb.mains (loadedFrame eb)) bs tr ∧
      List.Forall₂ (fun b eb => eb.key = (B b).key ∧ Loaded (D b) sp names eb.mains (loadedFrame eb)) bs te ∧
      (∀ eb ∈ tr, GoodBuilding names eb (loadedFrame eb)) ∧ ∀ eb ∈ te, GoodBuilding names eb (loadedFrame eb) := by
  have hgood : ∀ (eb : ExpBuilding) frames, GoodBuilding names eb frames →
      GoodBuilding names eb (loadedFrame eb) ∧ ∀ a ∈ names, loadedFrame eb a = frames a := by
    rintro eb frames ⟨h1, h2⟩
    have h3 : ∀ a ∈ names, loadedFrame eb a = frames a := by
      intro a ha
      unfold loadedFrame
      rw [(h2 a ha).2]
      rfl
    refine ⟨⟨h1, fun a ha => ?_⟩, h3⟩
    rw [h3 a ha]
    exact h2 a ha
  have hload : ∀ (d : HomeData) mains (frames frames' : String → RowFrame), Loaded d sp names mains frames →
      (∀ a ∈ names, frames' a = frames a) → Loaded d sp names mains frames' := by
    intro d mains frames frames' hl he
    exact ⟨hl.one, hl.several, fun n hn => by rw [he n hn]; exact hl.apps n hn⟩
  induction bs with
  | nil => exact ⟨[], [], .nil, .nil, .nil, .nil, by simp, by simp⟩
  | cons b bs ih =>
    obtain ⟨tr, te, i1, i2, i3, i4, i5, i6⟩ := ih (fun x hx => h x (List.mem_cons_of_mem _ hx))
    obtain ⟨mains, frames, l1, ⟨eb, e1, e2, e3, e4⟩, ⟨eb', f1, f2, f3, f4⟩⟩ := C121_loaded_partial hk hsp hcs (h b List.mem_cons_self)
    refine ⟨eb :: tr, eb' :: te, .cons e1 i1, .cons f1 i2, .cons ⟨e2, ?_⟩ i3, .cons ⟨f2, ?_⟩ i4, ?_, ?_⟩
    · rw [e3]; exact hload _ _ _ _ l1 (hgood eb frames e4).2
    · rw [f3]; exact hload _ _ _ _ l1 (hgood eb' frames f4).2
    · intro x hx
      rcases List.mem_cons.1 hx with rfl | hx
      · exact (hgood _ _ e4).1
      · exact i5 x hx
    · intro x hx
      rcases List.mem_cons.1 hx with rfl | hx
      · exact (hgood _ _ f4).1
      · exact i6 x hx

/-! ### Mean -/

theorem common_some {mains : RowFrame} {names : List String} {frames : String → RowFrame} {ix : List Int} {vals : List (Option Rat)}
    {a : String} (hc : CommonIndex mains (names.map frames) ix) (ha : a ∈ names) (ho : OneColumn (frames a))
    (hr : ReadsAt (frames a) ix vals) : vals = (vals.filterMap id).map some := by
  have hv : ∀ v ∈ vals, ∃ x, v = some x := by
    intro v hv
    obtain ⟨t, ht, hm⟩ : ∃ t ∈ ix, (t, [v]) ∈ frames a := by
      clear hc
      unfold ReadsAt at hr
      induction hr with
      | nil => simp at hv
      | cons h1 _ ih =>
        rcases List.mem_cons.1 hv with rfl | hv
        · exact ⟨_, List.mem_cons_self, h1⟩
        · obtain ⟨t, h2, h3⟩ := ih hv
          exact ⟨t, List.mem_cons_of_mem _ h2, h3⟩
    obtain ⟨vs, h1, h2⟩ := ((hc.2 t).1 ht).2 (frames a) (List.mem_map.2 ⟨a, ha, rfl⟩)
    have h3 : (t, vs) = (t, [v]) := List.inj_on_of_nodup_map ho.1 h1 hm rfl
    simp only [Prod.mk.injEq, true_and] at h3
    subst h3
    cases v with
    | none => simp at h2
    | some x => exact ⟨x, rfl⟩
  clear hr hc
  induction vals with
  | nil => rfl
  | cons v vals ih =>
    obtain ⟨x, rfl⟩ := hv v List.mem_cons_self
    simp only [List.filterMap_cons, id_eq, List.map_cons]
    exact congrArg (some x :: ·) (ih (fun w hw => hv w (List.mem_cons_of_mem _ hw)))

theorem column_values {ix : List Int} {vals : List (Option Rat)} (h : ix.length = vals.length) :
    ((ix.zip (vals.map (fun v => [v]))).map Prod.snd).flatten = vals := by
  rw [List.map_snd_zip (by rw [List.length_map]; omega)]
  induction vals generalizing ix with
  | nil => rfl
  | cons v vals ih =>
    cases ix with
    | nil => simp at h
    | cons t ix =>
      simp only [List.map_cons, List.flatten_cons, List.singleton_append]
      rw [ih (ix := ix) (by simpa using h)]

/-- The level that `Mean` has learnt for an appliance. -/
def meanLevel (s : MeanModel) (a : String) : Rat := ((statOf s a).sum : Rat) / (statOf s a).nElem

theorem meanMethod_columns {s : MeanModel} {m : RowFrame} {out : PColumns} (h : meanMethod s m = .ok out) :
    out = s.map (fun e => (e.1, m.map (fun _ => some ((e.2.sum : Rat) / e.2.nElem)))) := by
  unfold meanMethod at h
  cases hf : meanFrame (m.map Prod.fst) s with
  | error e => rw [hf] at h; cases h
  | ok cols =>
    rw [hf] at h
    cases h
    have := meanFrame_ok _ _ _ hf
    clear hf
    induction this with
    | nil => rfl
    | cons h1 _ ih =>
      obtain ⟨h2, -, h3⟩ := h1
      simp only [List.map_cons, ih, h2, h3, List.map_map]
      rfl

theorem mean_constant {s : MeanModel} (hs : (s.map Prod.fst).Nodup) {m : RowFrame} {out : PColumns} (h : meanMethod s m = .ok out)
    {a : String} {vals : List (Option Rat)} (hl : out.lookup a = some vals) : vals = List.replicate m.length (some (meanLevel s a)) := by
  have hm := mem_of_lookup hl
  rw [meanMethod_columns h] at hm
  obtain ⟨e, he, hx⟩ := List.mem_map.1 hm
  simp only [Prod.mk.injEq] at hx
  obtain ⟨rfl, rfl⟩ := hx
  have : statOf s e.1 = e.2 := by
    unfold statOf
    rw [lookup_of_mem_nodup hs (k := e.1) (v := e.2) he]
    rfl
  rw [List.map_const', meanLevel, this]

theorem readings_single (names : List String) (hn : names.Nodup) (F : String → List (List (Option Rat))) (a : String) (ha : a ∈ names) :
    readingsOf a (names.map (fun b => (b, F b))) = [(F a).flatten] := by
  unfold readingsOf
  rw [List.filter_map, List.map_map]
  have : names.filter ((fun e : String × List (List (Option Rat)) => e.1 == a) ∘ fun b => (b, F b)) = [a] := by
    have : names.filter ((fun e : String × List (List (Option Rat)) => e.1 == a) ∘ fun b => (b, F b)) = names.filter (fun b => b == a) := rfl
    rw [this]
    apply nodup_single (hn.sublist List.filter_sublist)
    intro y
    simp only [List.mem_filter, beq_iff_eq]
    exact ⟨fun h => h.2, fun h => ⟨h ▸ ha, h⟩⟩
  rw [this]
  rfl

/-- What `Mean` has learnt from one call of `partial_fit`. -/
theorem mean_learnt (names : List String) (hn : names.Nodup) (F : String → List (List (Option Rat))) (s : MeanModel)
    (h : meanFit [] (names.map (fun b => (b, F b))) = .ok s) :
    (s.map Prod.fst).Nodup ∧ (∀ a, a ∈ s.map Prod.fst ↔ a ∈ names) ∧
    ∀ a ∈ names, ∀ readings : List Rat, (F a).flatten = readings.map some →
      IsTrainedMean readings (meanLevel s a) ∧ (statOf s a).nElem = readings.length := by
  have hall : meanFitAll [] [names.map (fun b => (b, F b))] = .ok s := by
    simp only [meanFitAll, h]
  obtain ⟨n1, -, n2⟩ := C50_names _ s hall
  refine ⟨n1, ?_, ?_⟩
  · intro a
    rw [n2]
    simp
  · intro a ha readings hr
    obtain ⟨h1, h2⟩ := C50_history _ s hall a
    unfold readingsOfAll at h1 h2
    rw [List.flatMap_singleton, readings_single names hn F a ha, hr] at h1 h2
    simp only [List.map_cons, List.map_nil, List.sum_cons, List.sum_nil, add_zero, List.length_map] at h1 h2
    have h3 : sumPresent (readings.map some) = readings.sum := by
      unfold sumPresent
      rw [List.filterMap_map]
      simp
    rw [h3] at h1
    refine ⟨⟨truncInt readings.sum, truncInt_whole _, ?_⟩, h2⟩
    unfold meanLevel
    rw [h1, h2]

/-- C121. An experiment with `Mean`, from the tables to the errors: for each appliance it has learnt the mean (its sum without the
fraction) of the resampled readings at all instants of the training windows at which the mains and all appliances have one, and for each
building of the test the errors are those of this constant against the resampled readings at the common instants of the test window. -/
theorem C121_mean_partial {ρ : Type} (cfg : ExpCfg ρ) (hs : cfg.siteOnly = false) (hd : cfg.dropAllNans = true)
    (hn : cfg.appliances.Nodup) (hne : cfg.appliances ≠ []) {k : LoadCfg} {sp : Nat} (hk : k.samplePeriod = sp) (hsp : 0 < sp)
    (hcs : 0 < k.cs) {ι : Type} (B : ι → StoredBuilding) (D : ι → HomeData) (train test : List ι)
    (htrain : ∀ b ∈ train, GoodHome k sp cfg.appliances (B b) (D b)) (htest : ∀ b ∈ test, GoodHome k sp cfg.appliances (B b) (D b))
    (name : String) (chunkWise : Bool) (c' : Clf MeanModel) (st : ExpState ρ)
    (hrun : storedExperiment cfg k name (train.map B) (test.map B) (meanClf chunkWise meanMethod) = .ok (c', st)) :
    ∃ learnt : List (String → List Rat),
      List.Forall₂ (fun b readings => ∃ mains frames ix, Loaded (D b) sp cfg.appliances mains frames ∧
        CommonReadings cfg.appliances mains frames ix readings) train learnt ∧
      (∀ a ∈ cfg.appliances, IsTrainedMean (learnt.map (fun readings => readings a)).flatten (meanLevel c'.state a)) ∧
      ∃ reports, st.keys = reports.flatten.map Prod.fst ∧ st.errors = reports.flatten.map Prod.snd ∧
        List.Forall₂ (fun b entries => ∃ mains frames ix truth, Loaded (D b) sp cfg.appliances mains frames ∧
          CommonReadings cfg.appliances mains frames ix truth ∧
          ConstantReport cfg name (B b).key ix truth (meanLevel c'.state) entries ∧
          (ix ≠ [] → cfg.metrics.filter (fun x => (cfg.losses x).isSome) ≠ [] →
            ∀ a ∈ cfg.appliances, (learnt.map (fun readings => readings a)).flatten ≠ [])) test reports := by
  obtain ⟨tr, -, t1, -, t3, -, t5, -⟩ := all_loaded hk hsp hcs B D train htrain
  obtain ⟨-, te, -, u2, -, u4, -, u6⟩ := all_loaded hk hsp hcs B D test htest
  unfold storedExperiment at hrun
  rw [fitStored_eq cfg k (List.forall₂_map_left_iff.2 t1)] at hrun
  unfold fitJointly at hrun
  cases hj : trainJointly cfg tr with
  | error e => rw [hj] at hrun; cases hrun
  | ok r =>
    obtain ⟨ms, subs⟩ := r
    rw [hj] at hrun
    simp only at hrun
    obtain ⟨parts, p1, p2, p3⟩ := C71_training cfg hd loadedFrame tr t5 ms subs hj
    cases hfit : (meanClf chunkWise meanMethod).fit (meanClf chunkWise meanMethod).nEpochs (meanClf chunkWise meanMethod).state ms subs none with
    | error e => rw [hfit] at hrun; cases hrun
    | ok s =>
      rw [hfit] at hrun
      simp only at hrun
      rw [testStored_eq _ k (List.forall₂_map_left_iff.2 u2)] at hrun
      cases htst : testJointly { cfg with methods := [(name, (meanClf chunkWise meanMethod).predict s)] } te ⟨[], [], []⟩ with
      | error e =>
        rw [show (({ meanClf chunkWise meanMethod with state := s } : Clf MeanModel).predict
          ({ meanClf chunkWise meanMethod with state := s } : Clf MeanModel).state) = (meanClf chunkWise meanMethod).predict s from rfl,
          htst] at hrun
        cases hrun
      | ok st1 =>
        rw [show (({ meanClf chunkWise meanMethod with state := s } : Clf MeanModel).predict
          ({ meanClf chunkWise meanMethod with state := s } : Clf MeanModel).state) = (meanClf chunkWise meanMethod).predict s from rfl,
          htst] at hrun
        simp only [Except.ok.injEq, Prod.mk.injEq] at hrun
        obtain ⟨rfl, rfl⟩ := hrun
        show ∃ learnt : List (String → List Rat), _ ∧ (∀ a ∈ cfg.appliances, IsTrainedMean _ (meanLevel s a)) ∧ _
        have hsub : (subs.map (fun e => (e.1, e.2.map (fun f => (f.map Prod.snd).flatten)))) =
            cfg.appliances.map (fun a => (a, parts.map (fun p => ((p.2 a).map Prod.snd).flatten))) := by
          rw [p3, List.map_map]
          simp [Function.comp_def]
        have hfit' : meanFit [] (cfg.appliances.map (fun a => (a, parts.map (fun p => ((p.2 a).map Prod.snd).flatten)))) = .ok s := by
          rw [← hsub]; exact hfit
        obtain ⟨l1, l2, l3⟩ := mean_learnt cfg.appliances hn _ s hfit'
        -- the readings that were learnt
        have hlearn : ∃ learnt : List (String → List Rat),
            List.Forall₂ (fun b readings => ∃ mains frames ix, Loaded (D b) sp cfg.appliances mains frames ∧
              CommonReadings cfg.appliances mains frames ix readings) train learnt ∧
            ∀ a ∈ cfg.appliances, (parts.map (fun p => ((p.2 a).map Prod.snd).flatten)).flatten =
              ((learnt.map (fun readings => readings a)).flatten).map some := by
          clear hfit hfit' hj htst p2 p3 l3 hsub t1 htrain
          induction t3 generalizing parts with
          | nil => cases p1; exact ⟨[], .nil, by simp⟩
          | @cons b eb bs ebs hb _ ih =>
            cases p1 with
            | @cons _ p _ ps q1 q2 =>
              obtain ⟨ix, truth, c1, c2, -⟩ := q1
              obtain ⟨learnt, i1, i2⟩ := ih (fun x hx => t5 x (List.mem_cons_of_mem _ hx)) ps q2
              have hg := t5 eb List.mem_cons_self
              have hsome : ∀ a ∈ cfg.appliances, truth a = ((truth a).filterMap id).map some := fun a ha =>
                common_some c1 ha (hg.2 a ha).1 (c2 a ha).1
              refine ⟨(fun a => (truth a).filterMap id) :: learnt, .cons ⟨eb.mains, loadedFrame eb, ix, hb.2, c1, ?_⟩ i1, ?_⟩
              · intro a ha
                rw [← hsome a ha]
                exact (c2 a ha).1
              · intro a ha
                simp only [List.map_cons, List.flatten_cons, List.map_append]
                rw [i2 a ha, (c2 a ha).2, column_values (c2 a ha).1.length_eq, ← hsome a ha]
        obtain ⟨learnt, k1, k2⟩ := hlearn
        refine ⟨learnt, k1, fun a ha => (l3 a ha _ (k2 a ha)).1, ?_⟩
        -- the test
        have hgm : GoodMethods { cfg with methods := [(name, meanMethod s)] } := by
          refine ⟨by simp, ?_⟩
          intro n c hc m out hout
          simp only [List.mem_singleton, Prod.mk.injEq] at hc
          obtain ⟨rfl, rfl⟩ := hc
          rw [meanMethod_columns hout, List.map_map]
          exact l1
        obtain ⟨reports, r1, r2, r3⟩ := C71_each_building { cfg with methods := [(name, meanMethod s)] } hs hd hgm loadedFrame te _ _
          u6 (by simp) htst
        refine ⟨reports, by simpa using r2, by simpa using r3, ?_⟩
        clear r2 r3 htst u2 htest
        induction u4 generalizing reports with
        | nil => cases r1; exact .nil
        | @cons b eb bs ebs hb _ ih =>
          cases r1 with
          | @cons _ entries _ rs q1 q2 =>
            refine .cons ?_ (ih (fun x hx => u6 x (List.mem_cons_of_mem _ hx)) rs q2)
            obtain ⟨ix, m, truth, c1, c2, c3, c4, c5⟩ := q1
            have hg := u6 eb List.mem_cons_self
            have hsome : ∀ a ∈ cfg.appliances, truth a = ((truth a).filterMap id).map some := fun a ha =>
              common_some c1 ha (hg.2 a ha).1 (c2 a ha)
            have hlen : m.length = ix.length := by rw [← c3.1, List.length_map]
            refine ⟨eb.mains, loadedFrame eb, ix, fun a => (truth a).filterMap id, hb.2, ⟨c1, ?_⟩, ⟨fun h => c4 (.inl h), ?_⟩, ?_⟩
            · intro a ha
              rw [← hsome a ha]
              exact c2 a ha
            · intro hix
              refine (c5 hix hne).imp ?_
              rintro metric e ⟨e1, loss, e2, e3, e4⟩
              obtain ⟨out, row, o1, o2, o3, o4, o5⟩ := e4 name (meanMethod s) List.mem_cons_self
              refine ⟨by rw [e1, hb.1], loss, row, e2, ?_, o3, o4, ?_⟩
              · obtain ⟨e0, table⟩ := e
                simp only [List.map_cons, List.map_nil] at e3 o2
                cases table with
                | nil => simp at e3
                | cons x rest =>
                  simp only [List.map_cons, List.cons.injEq, List.map_eq_nil_iff] at e3
                  obtain ⟨e5, rfl⟩ := e3
                  obtain ⟨x1, x2⟩ := x
                  simp only at e5
                  subst e5
                  simp only [List.lookup_cons, beq_self_eq_true, Option.some.injEq] at o2
                  rw [o2]
              · intro a ha
                obtain ⟨vals, r, v1, -, v3, v4⟩ := o5 a ha
                refine ⟨r, ?_, v4⟩
                rw [mean_constant l1 o1 v1, hlen, List.take_of_length_le (by simp), hsome a ha] at v3
                exact v3
            · intro hix hmet a ha hnil
              have hf := c5 hix hne
              cases hmf : cfg.metrics.filter (fun x => (cfg.losses x).isSome) with
              | nil => exact hmet hmf
              | cons metric rest =>
                simp only [hmf] at hf
                cases hf with
                | cons h1 _ =>
                  obtain ⟨-, loss, -, -, h4⟩ := h1
                  obtain ⟨out, row, o1, -⟩ := h4 name (meanMethod s) List.mem_cons_self
                  have hz : (statOf s a).nElem = 0 := by
                    rw [(l3 a ha _ (k2 a ha)).2, hnil]
                    rfl
                  obtain ⟨e, he, rfl⟩ := List.mem_map.1 ((l2 a).2 ha)
                  have hst : statOf s e.1 = e.2 := by
                    unfold statOf
                    rw [lookup_of_mem_nodup l1 (k := e.1) (v := e.2) he]
                    rfl
                  rw [hst] at hz
                  unfold meanMethod at o1
                  rw [meanFrame_error _ s ⟨e, he, hz⟩] at o1
                  cases o1

/-! ### Which experiments succeed -/

theorem prepare_total {ρ : Type} (cfg : ExpCfg ρ) (hd : cfg.dropAllNans = true) (hne : cfg.appliances ≠ []) (b : ExpBuilding)
    (frames : String → RowFrame) (hb : GoodBuilding cfg.appliances b frames) :
    mapE b.load cfg.appliances = .ok (cfg.appliances.map frames) ∧
    ∃ m as, prepare cfg b.mains (cfg.appliances.map frames) = .ok (m, as) := by
  constructor
  · rw [mapE_ok, List.forall₂_map_right_iff]
    apply List.forall₂_same.2
    intro a ha
    exact (hb.2 a ha).2
  · obtain ⟨m', as', caller, ix, h1, _, _, _, h5, _⟩ := C61_aligned b.mains (cfg.appliances.map frames) hb.1 (by
      intro f hf'
      obtain ⟨a, ha, rfl⟩ := List.mem_map.1 hf'
      exact (hb.2 a ha).1.1)
    unfold prepare
    rw [hd]
    simp only [if_true, h1]
    by_cases ha : cfg.artificial = true
    · rw [ha]
      simp only [if_true]
      have : as' ≠ [] := by
        rintro rfl
        cases hap : cfg.appliances with
        | nil => exact hne hap
        | cons x xs => rw [hap] at h5; cases h5
      cases as' with
      | nil => exact absurd rfl this
      | cons f fs => exact ⟨_, _, rfl⟩
    · have ha' : cfg.artificial = false := by simpa using ha
      rw [ha']
      exact ⟨_, _, rfl⟩

theorem trainLoop_total {ρ : Type} (cfg : ExpCfg ρ) (hd : cfg.dropAllNans = true) (hne : cfg.appliances ≠ [])
    (frames : ExpBuilding → String → RowFrame) (bs : List ExpBuilding) (hb : ∀ b ∈ bs, GoodBuilding cfg.appliances b (frames b))
    (ms : List RowFrame) (subs : List (List RowFrame)) : ∃ r, trainLoop cfg bs ms subs = .ok r := by
  induction bs generalizing ms subs with
  | nil => exact ⟨_, rfl⟩
  | cons b bs ih =>
    obtain ⟨h1, m, as, h2⟩ := prepare_total cfg hd hne b (frames b) (hb b List.mem_cons_self)
    simp only [trainLoop, h1, h2]
    exact ih (fun x hx => hb x (List.mem_cons_of_mem _ hx)) _ _

theorem meanFit_total (call : MeanCall) (m : MeanModel) (h : ∀ e ∈ call, e.2 ≠ []) : ∃ s, meanFit m call = .ok s := by
  induction call generalizing m with
  | nil => exact ⟨m, rfl⟩
  | cons e call ih =>
    obtain ⟨n, fs⟩ := e
    unfold meanFit meanFitOne
    rw [if_neg (h _ List.mem_cons_self)]
    exact ih _ (fun x hx => h x (List.mem_cons_of_mem _ hx))

theorem meanFrame_total (index : List Int) (m : MeanModel) (h : ∀ e ∈ m, e.2.nElem ≠ 0) : ∃ f, meanFrame index m = .ok f := by
  induction m with
  | nil => exact ⟨_, rfl⟩
  | cons e m ih =>
    obtain ⟨n, s⟩ := e
    obtain ⟨f, hf⟩ := ih (fun x hx => h x (List.mem_cons_of_mem _ hx))
    unfold meanFrame meanColumn
    rw [if_neg (h _ List.mem_cons_self), hf]
    exact ⟨_, rfl⟩

theorem statOf_mem {s : MeanModel} (hs : (s.map Prod.fst).Nodup) {e : String × MeanStat} (he : e ∈ s) : statOf s e.1 = e.2 := by
  unfold statOf
  rw [lookup_of_mem_nodup hs (k := e.1) (v := e.2) he]
  rfl

/-- The instants at which the mains and all appliances of a building have a reading in the window. -/
def HasCommon (d : HomeData) (sp : Nat) (names : List String) : Prop :=
  ∀ mains frames ix, Loaded d sp names mains frames → CommonIndex mains (names.map frames) ix → ix ≠ []

/-- There is no such instant. -/
def HasNoCommon (d : HomeData) (sp : Nat) (names : List String) : Prop :=
  ∀ mains frames ix, Loaded d sp names mains frames → CommonIndex mains (names.map frames) ix → ix = []

/-- Training succeeds; how many readings each appliance had. -/
theorem mean_trained {ρ : Type} (cfg : ExpCfg ρ) (hd : cfg.dropAllNans = true)
    (hn : cfg.appliances.Nodup) (hne : cfg.appliances ≠ []) {k : LoadCfg} {sp : Nat} (hk : k.samplePeriod = sp) (hsp : 0 < sp)
    (hcs : 0 < k.cs) {ι : Type} (B : ι → StoredBuilding) (D : ι → HomeData) (train : List ι)
    (htrain : ∀ b ∈ train, GoodHome k sp cfg.appliances (B b) (D b)) (hne' : train ≠ []) (chunkWise : Bool) :
    ∃ s, fitStored cfg k (train.map B) (meanClf chunkWise meanMethod) = .ok { meanClf chunkWise meanMethod with state := s } ∧
      (s.map Prod.fst).Nodup ∧ (∀ a, a ∈ s.map Prod.fst ↔ a ∈ cfg.appliances) ∧
      ((∃ b ∈ train, HasCommon (D b) sp cfg.appliances) → ∀ e ∈ s, e.2.nElem ≠ 0) ∧
      ((∀ b ∈ train, HasNoCommon (D b) sp cfg.appliances) → ∀ e ∈ s, e.2.nElem = 0) := by
  obtain ⟨tr, -, t1, -, t3, -, t5, -⟩ := all_loaded hk hsp hcs B D train htrain
  rw [fitStored_eq cfg k (List.forall₂_map_left_iff.2 t1)]
  obtain ⟨r, hr⟩ := trainLoop_total cfg hd hne loadedFrame tr t5 [] (cfg.appliances.map (fun _ => []))
  have hj : trainJointly cfg tr = .ok (r.1, cfg.appliances.zip r.2) := by
    unfold trainJointly
    rw [hr]
  obtain ⟨parts, p1, p2, p3⟩ := C71_training cfg hd loadedFrame tr t5 _ _ hj
  have hsub : ((cfg.appliances.zip r.2).map (fun e => (e.1, e.2.map (fun f => (f.map Prod.snd).flatten)))) =
      cfg.appliances.map (fun a => (a, parts.map (fun p => ((p.2 a).map Prod.snd).flatten))) := by
    rw [p3, List.map_map]
    simp [Function.comp_def]
  have hparts : parts ≠ [] := by
    rintro rfl
    cases p1
    cases t1
    exact hne' rfl
  obtain ⟨s, hs⟩ := meanFit_total (cfg.appliances.map (fun a => (a, parts.map (fun p => ((p.2 a).map Prod.snd).flatten)))) [] (by
    intro e he
    obtain ⟨a, -, rfl⟩ := List.mem_map.1 he
    simpa using hparts)
  have hall : meanFitAll [] [cfg.appliances.map (fun a => (a, parts.map (fun p => ((p.2 a).map Prod.snd).flatten)))] = .ok s := by
    simp only [meanFitAll, hs]
  obtain ⟨n1, -, n2⟩ := C50_names _ s hall
  have n2' : ∀ a, a ∈ s.map Prod.fst ↔ a ∈ cfg.appliances := by
    intro a
    rw [n2]
    simp
  have hcount : ∀ e ∈ s, e.2.nElem = (parts.map (fun p => ((p.2 e.1).map Prod.snd).flatten)).flatten.length := by
    intro e he
    have h2 := (C50_history _ s hall e.1).2
    unfold readingsOfAll at h2
    rw [List.flatMap_singleton, readings_single cfg.appliances hn _ e.1 ((n2' _).1 (List.mem_map.2 ⟨e, he, rfl⟩)), statOf_mem n1 he] at h2
    simpa using h2
  refine ⟨s, ?_, n1, n2', ?_, ?_⟩
  · unfold fitJointly
    rw [hj]
    simp only
    have : (meanClf chunkWise meanMethod).fit (meanClf chunkWise meanMethod).nEpochs (meanClf chunkWise meanMethod).state r.1
        (cfg.appliances.zip r.2) none = .ok s := by
      show meanFit [] _ = _
      rw [hsub]
      exact hs
    rw [this]
  · rintro ⟨b, hb, hc⟩ e he
    rw [hcount e he]
    have ha := (n2' _).1 (List.mem_map.2 ⟨e, he, rfl⟩)
    clear hcount n2 hall hs hsub p2 p3 hj hr t1 htrain hne' hparts
    induction t3 generalizing parts with
    | nil => simp at hb
    | @cons b' eb bs ebs hb' _ ih =>
      cases p1 with
      | @cons _ p _ ps q1 q2 =>
        simp only [List.map_cons, List.flatten_cons, List.length_append]
        rcases List.mem_cons.1 hb with rfl | hb
        · obtain ⟨ix, truth, c1, c2, -⟩ := q1
          have h1 := hc _ _ ix hb'.2 c1
          have h2 := (c2 e.1 ha).1.length_eq
          rw [(c2 e.1 ha).2, column_values h2, ← h2]
          have := List.length_pos_of_ne_nil h1
          omega
        · have := ih (fun x hx => t5 x (List.mem_cons_of_mem _ hx)) ps q2 hb
          omega
  · intro hc e he
    rw [hcount e he]
    have ha := (n2' _).1 (List.mem_map.2 ⟨e, he, rfl⟩)
    clear hcount n2 hall hs hsub p2 p3 hj hr t1 htrain hne' hparts
    induction t3 generalizing parts with
    | nil => cases p1; rfl
    | @cons b' eb bs ebs hb' _ ih =>
      cases p1 with
      | @cons _ p _ ps q1 q2 =>
        simp only [List.map_cons, List.flatten_cons, List.length_append]
        obtain ⟨ix, truth, c1, c2, -⟩ := q1
        have h1 := hc _ List.mem_cons_self _ _ ix hb'.2 c1
        have h2 := (c2 e.1 ha).1.length_eq
        rw [(c2 e.1 ha).2, column_values h2, ← h2, h1,
          ih (fun x hx => t5 x (List.mem_cons_of_mem _ hx)) ps q2 (fun x hx => hc x (List.mem_cons_of_mem _ hx))]
        rfl

theorem test_error {ρ : Type} (cfg : ExpCfg ρ) (hs : cfg.siteOnly = false) (eb : ExpBuilding) (st : ExpState ρ) {apps as : List RowFrame}
    {m : RowFrame} {e : Err} (h1 : mapE eb.load cfg.appliances = .ok apps) (h2 : prepare cfg eb.mains apps = .ok (m, as))
    (h3 : ∀ st, callPredict cfg eb.key m st = .error e) : testBuilding cfg eb st = .error e := by
  simp only [testBuilding, hs, Bool.false_eq_true, if_false, h1, h2, h3]

/-- C121. The experiment with `Mean` succeeds if some building of the training has a common instant; without any, the prediction of the
first building of the test is a `ZeroDivisionError`. -/
theorem C121_succeeds {ρ : Type} (cfg : ExpCfg ρ) (hs : cfg.siteOnly = false) (hd : cfg.dropAllNans = true)
    (hn : cfg.appliances.Nodup) (hne : cfg.appliances ≠ []) {k : LoadCfg} {sp : Nat} (hk : k.samplePeriod = sp) (hsp : 0 < sp)
    (hcs : 0 < k.cs) {ι : Type} (B : ι → StoredBuilding) (D : ι → HomeData) (train test : List ι)
    (htrain : ∀ b ∈ train, GoodHome k sp cfg.appliances (B b) (D b)) (htest : ∀ b ∈ test, GoodHome k sp cfg.appliances (B b) (D b))
    (name : String) (chunkWise : Bool) :
    (WorkingLosses cfg → (∃ b ∈ train, HasCommon (D b) sp cfg.appliances) →
      ∃ r, storedExperiment cfg k name (train.map B) (test.map B) (meanClf chunkWise meanMethod) = .ok r) ∧
    (train ≠ [] → test ≠ [] → (∀ b ∈ train, HasNoCommon (D b) sp cfg.appliances) →
      storedExperiment cfg k name (train.map B) (test.map B) (meanClf chunkWise meanMethod) = .error .zeroDivisionError) := by
  obtain ⟨-, te, -, u2, -, -, -, u6⟩ := all_loaded hk hsp hcs B D test htest
  constructor
  · intro hl hc
    obtain ⟨s, h1, h2, h3, h4, -⟩ := mean_trained cfg hd hn hne hk hsp hcs B D train htrain
      (by rintro rfl; obtain ⟨b, hb, -⟩ := hc; simp at hb) chunkWise
    have h5 := h4 hc
    unfold storedExperiment
    rw [h1]
    simp only
    rw [testStored_eq _ k (List.forall₂_map_left_iff.2 u2)]
    have hm : ∀ m, ∃ out, meanMethod s m = .ok out := by
      intro m
      obtain ⟨f, hf⟩ := meanFrame_total (m.map Prod.fst) s h5
      unfold meanMethod
      rw [hf]
      exact ⟨_, rfl⟩
    obtain ⟨st, hst⟩ := C71_succeeds { cfg with methods := [(name, meanMethod s)] } hs hd
      (by
        refine ⟨by simp, ?_⟩
        intro n c hc m out hout
        simp only [List.mem_singleton, Prod.mk.injEq] at hc
        obtain ⟨rfl, rfl⟩ := hc
        rw [meanMethod_columns hout, List.map_map]
        exact h2)
      (by
        refine ⟨by simp, ?_⟩
        intro n c hc m
        simp only [List.mem_singleton, Prod.mk.injEq] at hc
        obtain ⟨rfl, rfl⟩ := hc
        obtain ⟨out, hout⟩ := hm m
        refine ⟨out, hout, ?_, ?_⟩
        · intro a
          rw [meanMethod_columns hout, List.map_map]
          exact h3 a
        · intro e he
          rw [meanMethod_columns hout] at he
          obtain ⟨x, -, rfl⟩ := List.mem_map.1 he
          simp)
      hl (fun _ => hne) loadedFrame te ⟨[], [], []⟩ u6 (by simp)
    have : testJointly { cfg with methods := [(name, (meanClf chunkWise meanMethod).predict s)] } te ⟨[], [], []⟩ = .ok st := hst
    rw [this]
    exact ⟨_, rfl⟩
  · intro htr hte hc
    obtain ⟨s, h1, h2, h3, -, h4⟩ := mean_trained cfg hd hn hne hk hsp hcs B D train htrain htr chunkWise
    have h5 := h4 hc
    unfold storedExperiment
    rw [h1]
    simp only
    rw [testStored_eq _ k (List.forall₂_map_left_iff.2 u2)]
    cases te with
    | nil => cases u2; exact absurd rfl hte
    | cons eb te =>
      have hm : ∀ m, meanMethod s m = .error .zeroDivisionError := by
        intro m
        unfold meanMethod
        obtain ⟨a, ha⟩ := List.exists_mem_of_ne_nil _ hne
        obtain ⟨e, he, -⟩ := List.mem_map.1 ((h3 a).2 ha)
        rw [meanFrame_error _ s ⟨e, he, h5 e he⟩]
      obtain ⟨g1, m, as, g2⟩ := prepare_total { cfg with methods := [(name, (meanClf chunkWise meanMethod).predict s)] } hd hne eb
        (loadedFrame eb) (u6 eb List.mem_cons_self)
      have hcall : ∀ st, callPredict { cfg with methods := [(name, (meanClf chunkWise meanMethod).predict s)] } eb.key m st =
          .error .zeroDivisionError := by
        intro st
        have : (meanClf chunkWise meanMethod).predict s m = .error .zeroDivisionError := hm m
        simp only [callPredict, predictAll, apiPredict, this]
      have htb : testBuilding { cfg with methods := [(name, (meanClf chunkWise meanMethod).predict s)] } eb ⟨[], [], []⟩ =
          .error .zeroDivisionError := by
        exact test_error { cfg with methods := [(name, (meanClf chunkWise meanMethod).predict s)] } hs eb ⟨[], [], []⟩ g1 g2 hcall
      have htj : testJointly { cfg with methods := [(name, (meanClf chunkWise meanMethod).predict s)] } (eb :: te) ⟨[], [], []⟩ =
          .error .zeroDivisionError := by
        simp only [testJointly]
        rw [htb]
      show (match testJointly { cfg with methods := [(name, (meanClf chunkWise meanMethod).predict s)] } (eb :: te) ⟨[], [], []⟩ with
        | .error e => Except.error e
        | .ok st => Except.ok (({ meanClf chunkWise meanMethod with state := s } : Clf MeanModel), st)) = _
      rw [htj]

/-! ### From the files of REDD -/

/-- A house of REDD after conversion, in a window: channels 1 and 2 are the mains, each appliance has a channel. -/
def reddBuilding (sort : List (Int × Option Rat) → List (Int × Option Rat)) (tree : RawTree (Option Rat)) (house : Nat)
    (ms : Nat → List Measurement) (msp : Nat → Int) (period : Nat → Rat) (chan : String → Nat) (key : String)
    (w : Option Int × Option Int) : StoredBuilding :=
  ⟨key, [1, 2].map (reddHome sort tree house ms msp period), fun a => .ok (reddHome sort tree house ms msp period (chan a)), mk' w.1 w.2⟩

/-- The readings in its files, in the order of time. -/
def reddData (sort : List (Int × Option Rat) → List (Int × Option Rat)) (tree : RawTree (Option Rat)) (house : Nat)
    (ms : Nat → List Measurement) (msp : Nat → Int) (period : Nat → Rat) (chan : String → Nat) (order : Nat → List (Int × Rat))
    (w : Option Int × Option Int) : HomeData :=
  ⟨[1, 2].map (fun c => (reddHome sort tree house ms msp period c, reddReadings (order c) id)),
    fun a => (reddHome sort tree house ms msp period (chan a), reddReadings (order (chan a)) id), w.1, w.2⟩

/-- What an experiment asks of the files of a house: at least two readings of each channel in the window, not more than fit into a chunk,
and a window (or data) that is not too long. -/
structure ReddAsked (k : LoadCfg) (sp : Nat) (names : List String) (chans : List Nat) (ms : Nat → List Measurement) (msp : Nat → Int)
    (chan : String → Nat) (order : Nat → List (Int × Rat)) (w : Option Int × Option Int) : Prop where
  mains : 1 ∈ chans ∧ 2 ∈ chans
  apps : ∀ n ∈ names, chan n ∈ chans
  asked : ∀ c ∈ [1, 2], convertToCols (ms c) (.one "power") k.mains none = .ok [("power", "apparent")]
  wanted : AsksFor (names.map chan) ms msp k.appliance
  period : 0 < msp 1 ∧ 0 < msp 2
  window : ∀ x y, w.1 = some x → w.2 = some y → x < y
  many : ∀ c, c = 1 ∨ c = 2 ∨ (∃ n ∈ names, c = chan n) →
    2 ≤ ((reddReadings (order c) id).filter (fun r => fromUntil w.1 w.2 r.1)).length ∧
    (((reddReadings (order c) id).filter (fun r => fromUntil w.1 w.2 r.1)).length : Int) ≤ k.cs + 1
  short : ∀ c ∈ [1, 2], ∀ c' ∈ [1, 2], spanEnd w.2 (reddReadings (order c') id) - spanStart w.1 (reddReadings (order c) id) ≤
    (2 ^ 28 : Nat) * (sp * 1000000000)

theorem redd_good {sort : List (Int × Option Rat) → List (Int × Option Rat)} (hs : SortsByTime sort)
    {tree : RawTree (Option Rat)} (hx : ExpectedTree tree) {house : Nat} {chans : List Nat} {file order : Nat → List (Int × Rat)}
    {ms : Nat → List Measurement} {f : Nat → Rat → Rat} (h : ReddFiles tree house chans file order ms f) {msp : Nat → Int}
    {k : LoadCfg} {sp : Nat} {names : List String} {chan : String → Nat} {w : Option Int × Option Int}
    (hq : ReddAsked k sp names chans ms msp chan order w) (period : Nat → Rat) (key : String) :
    GoodHome k sp names (reddBuilding sort tree house ms msp period chan key w) (reddData sort tree house ms msp period chan order w) := by
  have hmono : ∀ cs : List Nat, (∀ c ∈ cs, c ∈ chans) → ReddFiles tree house cs file order ms f := fun cs hcs =>
    ⟨h.house_le, fun c hc => h.chans_le c (hcs c hc), fun c hc => h.files c (hcs c hc), fun c hc => h.limits c (hcs c hc)⟩
  have h12 : ReddFiles tree house [1, 2] file order ms f := hmono _ (by
    intro c hc
    simp only [List.mem_cons, List.not_mem_nil, or_false] at hc
    rcases hc with rfl | rfl
    · exact hq.mains.1
    · exact hq.mains.2)
  have hap : ReddFiles tree house (names.map chan) file order ms f := hmono _ (by
    intro c hc
    obtain ⟨n, hn, rfl⟩ := List.mem_map.1 hc
    exact hq.apps n hn)
  have hac : ∀ c ∈ [1, 2], reddAc c = "apparent" := by decide
  have hasks : AsksFor [1, 2] ms msp k.mains := by
    refine ⟨fun c hc => ⟨_, hq.asked c hc, by rw [hac c hc]; exact List.mem_cons_self⟩, fun c hc => ?_⟩
    simp only [List.mem_cons, List.not_mem_nil, or_false] at hc
    rcases hc with rfl | rfl
    · exact hq.period.1
    · exact hq.period.2
  refine ⟨rfl, hq.window, ?_, by simp [reddData], ⟨"apparent", ?_⟩, ?_, ?_, ?_⟩
  · simp only [reddBuilding, reddData, List.map_map]
    rfl
  · intro m hm
    obtain ⟨c, hc, rfl⟩ := List.mem_map.1 hm
    refine ⟨?_, hq.asked c hc⟩
    rw [← hac c hc]
    exact redd_holds hs hx h12 hasks period c hc
  · intro n hn
    exact ⟨rfl, _, redd_holds hs hx hap hq.wanted period (chan n) (List.mem_map.2 ⟨n, hn, rfl⟩)⟩
  · rintro m (hm | ⟨n, hn, rfl⟩)
    · obtain ⟨c, hc, rfl⟩ := List.mem_map.1 hm
      simp only [List.mem_cons, List.not_mem_nil, or_false] at hc
      exact hq.many c (by rcases hc with h | h <;> simp [h])
    · exact hq.many _ (.inr (.inr ⟨n, hn, rfl⟩))
  · intro m hm m' hm'
    obtain ⟨c, hc, rfl⟩ := List.mem_map.1 hm
    obtain ⟨c', hc', rfl⟩ := List.mem_map.1 hm'
    exact hq.short c hc c' hc'

/-- C121. From the files of a house of REDD to the errors: `Mean` trained in one window of the house and tested in another. -/
theorem C121_redd_partial {ρ : Type} (cfg : ExpCfg ρ) (hso : cfg.siteOnly = false) (hd : cfg.dropAllNans = true)
    (hn : cfg.appliances.Nodup) (hne : cfg.appliances ≠ []) {k : LoadCfg} {sp : Nat} (hk : k.samplePeriod = sp) (hsp : 0 < sp)
    (hcs : 0 < k.cs) {sort : List (Int × Option Rat) → List (Int × Option Rat)} (hs : SortsByTime sort)
    {tree : RawTree (Option Rat)} (hx : ExpectedTree tree) {house : Nat} {chans : List Nat} {file order : Nat → List (Int × Rat)}
    {ms : Nat → List Measurement} {f : Nat → Rat → Rat} (h : ReddFiles tree house chans file order ms f) {msp : Nat → Int}
    {chan : String → Nat} (train test : Option Int × Option Int)
    (htrain : ReddAsked k sp cfg.appliances chans ms msp chan order train)
    (htest : ReddAsked k sp cfg.appliances chans ms msp chan order test) (period : Nat → Rat) (key name : String) (chunkWise : Bool)
    (c' : Clf MeanModel) (st : ExpState ρ)
    (hrun : storedExperiment cfg k name [reddBuilding sort tree house ms msp period chan key train]
      [reddBuilding sort tree house ms msp period chan key test] (meanClf chunkWise meanMethod) = .ok (c', st)) :
    ∃ mains frames ix learnt mains' frames' ix' truth reports,
      Loaded (reddData sort tree house ms msp period chan order train) sp cfg.appliances mains frames ∧
      CommonReadings cfg.appliances mains frames ix learnt ∧
      (∀ a ∈ cfg.appliances, IsTrainedMean (learnt a) (meanLevel c'.state a)) ∧
      Loaded (reddData sort tree house ms msp period chan order test) sp cfg.appliances mains' frames' ∧
      CommonReadings cfg.appliances mains' frames' ix' truth ∧
      ConstantReport cfg name key ix' truth (meanLevel c'.state) reports ∧
      st.keys = reports.map Prod.fst ∧ st.errors = reports.map Prod.snd := by
  obtain ⟨learnt, h1, h2, reports, h3, h4, h5⟩ := C121_mean_partial cfg hso hd hn hne hk hsp hcs
    (reddBuilding sort tree house ms msp period chan key) (reddData sort tree house ms msp period chan order) [train] [test]
    (by simpa using redd_good hs hx h htrain period key) (by simpa using redd_good hs hx h htest period key) name chunkWise c' st hrun
  cases h1 with
  | cons q1 q2 =>
    cases q2
    cases h5 with
    | cons r1 r2 =>
      cases r2
      obtain ⟨mains, frames, ix, a1, a2⟩ := q1
      obtain ⟨mains', frames', ix', truth, b1, b2, b3, -⟩ := r1
      refine ⟨mains, frames, ix, _, mains', frames', ix', truth, _, a1, a2, fun a ha => ?_, b1, b2, b3, ?_, ?_⟩
      · simpa using h2 a ha
      · simpa using h3
      · simpa using h4

/-! ### Errors -/

theorem stored_train_error {ρ σ : Type} (cfg : ExpCfg ρ) (k : LoadCfg) (name : String) (b : StoredBuilding) (train test : List StoredBuilding)
    (c : Clf σ) {e : Err} (h : trainFrames k b = .error e) : storedExperiment cfg k name (b :: train) test c = .error e := by
  simp only [storedExperiment, fitStored, trainStored, h]

/-- C121. A building without site meters is an `AttributeError` (`None` has no `load`). A site meter without readings in the window is
an `IndexError` in training, and one with a single reading in a bounded window a `StopIteration`. The error of an appliance that the
building does not have passes on. -/
theorem C121_errors {ρ σ : Type} (cfg : ExpCfg ρ) {k : LoadCfg} {sp : Nat} (hk : k.samplePeriod = sp) (hsp : 0 < sp) (hcs : 0 < k.cs)
    (name : String) (b : StoredBuilding) (train test : List StoredBuilding) (c : Clf σ) :
    (b.mains = [] → storedExperiment cfg k name (b :: train) test c = .error .attributeError) ∧
    (∀ m ac l x y, b.mains = [m] → HoldsPower m k.mains ac l → b.window = mk' x y → (∀ u v, x = some u → y = some v → u < v) →
      (l.filter (fun r => fromUntil x y r.1) = [] → storedExperiment cfg k name (b :: train) test c = .error .indexError) ∧
      ((l.filter (fun r => fromUntil x y r.1)).length = 1 → x ≠ none ∨ y ≠ none →
        storedExperiment cfg k name (b :: train) test c = .error .exception)) ∧
    (∀ d a rest e, cfg.appliances = a :: rest → GoodHome k sp [] b d → b.appliance a = .error e →
      storedExperiment cfg k name (b :: train) test c = .error e) := by
  refine ⟨fun h => ?_, fun m ac l x y hm hl hw hxy => ⟨fun h => ?_, fun h hb => ?_⟩, fun d a rest e ha hg he => ?_⟩
  · apply stored_train_error
    simp only [trainFrames, h, mainsFrame, thenE]
  · apply stored_train_error
    obtain ⟨tf, h1⟩ := (C120_few hl sp hsp x y hxy k.cs hcs).1 h
    simp only [trainFrames, hm, mainsFrame, meterFrame, hw, hk, h1, thenE]
    rfl
  · apply stored_train_error
    have h1 := (C120_few hl sp hsp x y hxy k.cs hcs).2 h hb
    simp only [trainFrames, hm, mainsFrame, meterFrame, hw, hk, h1, thenE]
    rfl
  · obtain ⟨mains, frames, -, ⟨eb, e1, -⟩, -⟩ := C121_loaded_partial hk hsp hcs hg
    have h2 : eb.load a = .error e := by
      unfold trainFrames at e1
      split at e1
      · cases e1
      · cases e1
        simp only [applianceFrame, he, thenE]
    simp only [storedExperiment, fitStored, trainStored, e1, trainLoop, ha, mapE, h2]

/-! ### Examples -/

/-- A home with one site meter and one appliance, from 0 to `n - 1` every ten seconds. -/
def tensHome (key : String) (n : Nat) (window : TF) : StoredBuilding :=
  ⟨key, [tens n none], fun a => if a = "fridge" then .ok (tens n none) else .error .keyError, window⟩

/-- Its readings. -/
def tensReadings (n : Nat) : List (Int × Rat) := (List.range n).map (fun i : Nat => ((i : Int) * 10000000000, (i : Rat)))

def tensData (n : Nat) (x y : Option Int) : HomeData := ⟨[(tens n none, tensReadings n)], fun _ => (tens n none, tensReadings n), x, y⟩

def tensCfg : LoadCfg := ⟨.one "active", .one "active", 10, 100⟩

theorem tens_holds : HoldsPower (tens 4 none) (.one "active") "active" (tensReadings 4) :=
  ⟨rfl, by decide +kernel, ⟨[("power", "active")], by decide +kernel, by simp⟩, by decide⟩

/-- The readings of a home, at least two in the window. -/
theorem tens_good (key : String) (y : Option Int) (hy : y = none ∨ y = some 20000000000) :
    GoodHome tensCfg 10 ["fridge"] (tensHome key 4 (mk' none y)) (tensData 4 none y) := by
  refine ⟨rfl, by simp [tensData], rfl, by simp [tensData], ⟨"active", ?_⟩, ?_, ?_, ?_⟩
  · intro m hm
    simp only [tensData, List.mem_singleton] at hm
    subst hm
    exact ⟨tens_holds, by decide +kernel⟩
  · intro n hn
    simp only [List.mem_singleton] at hn
    subst hn
    exact ⟨rfl, "active", tens_holds⟩
  · intro m hm
    have : m = (tens 4 none, tensReadings 4) := by
      rcases hm with hm | ⟨n, -, rfl⟩
      · simpa [tensData] using hm
      · rfl
    subst this
    rcases hy with rfl | rfl <;> exact ⟨by decide +kernel, by decide +kernel⟩
  · intro m hm m' hm'
    simp only [tensData, List.mem_singleton] at hm hm'
    subst hm hm'
    rcases hy with rfl | rfl <;> decide +kernel

/-- Mean absolute difference, as the metric "mae". -/
def tensExp : ExpCfg Rat :=
  { appliances := ["fridge"], methods := [], metrics := ["mae", "unknown"], losses := fun n => if n = "mae" then some exLoss else none,
    siteOnly := false, dropAllNans := true, artificial := false }

/-- Training on the readings before the time 20, test on all: the constant 1/2 against 0, 1, 2, 3. -/
example : (storedExperiment tensExp tensCfg "Mean" [tensHome "a_1" 4 (mk' none (some 20000000000))] [tensHome "b_1" 4 (mk' none none)]
      (meanClf false meanMethod)).map (fun r => (r.1.state, r.2.keys, r.2.errors)) =
    .ok ([("fridge", ⟨1, 2⟩)], ["b_1_mae"], [[("Mean", [("fridge", 1 / 2 + 1 / 2 + 3 / 2 + 5 / 2)])]]) := by
  decide +kernel

/-- What the theorem says of this experiment. -/
example (c' : Clf MeanModel) (st : ExpState Rat)
    (hrun : storedExperiment tensExp tensCfg "Mean" [tensHome "a_1" 4 (mk' none (some 20000000000))] [tensHome "b_1" 4 (mk' none none)]
      (meanClf false meanMethod) = .ok (c', st)) : st.keys = ["b_1_mae"] ∨ st.keys = [] := by
  obtain ⟨learnt, -, -, reports, h3, -, h5⟩ := C121_mean_partial tensExp rfl rfl (by simp [tensExp]) (by simp [tensExp]) (k := tensCfg)
    (sp := 10) rfl (by omega) (by decide) (fun i : Bool => if i then tensHome "a_1" 4 (mk' none (some 20000000000)) else tensHome "b_1" 4 (mk' none none))
    (fun i => tensData 4 none (if i then some 20000000000 else none)) [true] [false]
    (by
      intro b hb
      simp only [List.mem_singleton] at hb
      subst hb
      exact tens_good "a_1" (some 20000000000) (.inr rfl))
    (by
      intro b hb
      simp only [List.mem_singleton] at hb
      subst hb
      exact tens_good "b_1" none (.inl rfl)) "Mean" false c' st hrun
  cases h5 with
  | cons r1 r2 =>
    cases r2
    obtain ⟨_, _, ix, _, -, -, ⟨r3, r4⟩, -⟩ := r1
    rw [h3]
    by_cases hix : ix = []
    · right; rw [r3 hix]; rfl
    · left
      have := r4 hix
      simp only [show tensExp.metrics.filter (fun x => (tensExp.losses x).isSome) = ["mae"] by decide] at this
      cases this with
      | cons t1 t2 =>
        cases t2
        simp only [List.flatten_cons, List.flatten_nil, List.append_nil, List.map_cons, List.map_nil, t1.1]
        rfl

theorem tens_common : HasCommon (tensData 4 none none) 10 ["fridge"] := by
  intro mains frames ix hl hc hix
  have hat : ∀ f, ShowsMeter (tensData 4 none none) 10 (tens 4 none, tensReadings 4) f → CompleteAt f 0 := by
    rintro f ⟨out, hr, rfl⟩
    have hrows : asRows ((tensData 4 none none).within (tensReadings 4)) =
        [(0, some 0), (10000000000, some 1), (20000000000, some 2), (30000000000, some 3)] := by decide +kernel
    rw [hrows] at hr
    have h0 : (0 : Int) ∈ out.map Prod.fst := by
      obtain ⟨start, k, r1, r2, ⟨p, hp, hp'⟩, -, ⟨q, hq, hq1, midnight, hd, hm1, hm2, hm3⟩⟩ := hr.index.regular
      have hge : ∀ p ∈ [((0 : Int), some (0 : Rat)), (10000000000, some 1), (20000000000, some 2), (30000000000, some 3)], 0 ≤ p.1 := by
        decide +kernel
      have hp0 := hge p hp
      have hq0 := hge q hq
      have hq2 := hq1 (0, some 0) List.mem_cons_self
      have hs := r2 (0, some 0) List.mem_cons_self
      simp only at hq2 hs
      obtain ⟨u, hu⟩ := hd
      obtain ⟨v, hv⟩ := hm3
      unfold wholeDay at hu hm2
      have hu0 : u = 0 := by omega
      have hv0 : v = 0 := by omega
      subst hu0 hv0
      have hstart : start = 0 := by omega
      rw [r1]
      refine List.mem_map.2 ⟨0, List.mem_range.2 ?_, ?_⟩
      · rcases Nat.eq_zero_or_pos k with rfl | hk
        · simp at hs; omega
        · exact hk
      · rw [hstart]; simp
    have := (hr.value 0 0).2 ⟨h0, 0, h0, le_refl _,
      ⟨by decide +kernel, show (0 : Rat) * _ = _ by decide +kernel⟩, fun p hp h1 h2 => by omega, by decide +kernel⟩
    exact ⟨[some 0], List.mem_map.2 ⟨_, this, rfl⟩, by simp⟩
  have : (0 : Int) ∈ ix := (hc.2 0).2 ⟨hat _ (hl.one _ rfl), by
    intro f hf
    simp only [List.map_cons, List.map_nil, List.mem_singleton] at hf
    subst hf
    exact hat _ (hl.apps "fridge" (by simp))⟩
  rw [hix] at this
  simp at this

/-- Without metrics that fail, the experiment succeeds. -/
example : ∃ r, storedExperiment tensExp tensCfg "Mean" [tensHome "a_1" 4 (mk' none none)] [tensHome "a_1" 4 (mk' none none)]
    (meanClf false meanMethod) = .ok r :=
  (C121_succeeds tensExp rfl rfl (by simp [tensExp]) (by simp [tensExp]) (k := tensCfg) (sp := 10) rfl (by omega) (by decide)
    (fun _ : Unit => tensHome "a_1" 4 (mk' none none)) (fun _ => tensData 4 none none) [()] [()]
    (fun _ _ => tens_good "a_1" none (.inl rfl)) (fun _ _ => tens_good "a_1" none (.inl rfl)) "Mean" false).1
    (by
      intro metric loss hm x y _ _
      simp only [tensExp] at hm
      split at hm
      · cases hm; exact ⟨_, rfl⟩
      · cases hm) ⟨(), by simp, tens_common⟩

/-- A home without site meters; an appliance that the home does not have. -/
example (train test : List StoredBuilding) (w : TF) :
    storedExperiment tensExp tensCfg "Mean" (⟨"a_1", [], fun _ => .ok (tens 4 none), w⟩ :: train) test (meanClf false meanMethod) =
      .error .attributeError :=
  (C121_errors tensExp (sp := 10) rfl (by omega) (by decide) "Mean" _ train test _).1 rfl

example (train test : List StoredBuilding) :
    storedExperiment { tensExp with appliances := ["kettle"] } tensCfg "Mean" (tensHome "a_1" 4 (mk' none none) :: train) test
      (meanClf false meanMethod) = .error .keyError :=
  (C121_errors _ (sp := 10) rfl (by omega) (by decide) "Mean" _ train test _).2.2 (tensData 4 none none) "kettle" [] _ rfl
    (by
      have := tens_good "a_1" none (.inl rfl)
      exact ⟨this.window, this.order, this.meters, this.some, this.mains, by simp, fun m hm => this.many m (by
        rcases hm with h | ⟨n, hn, -⟩
        · exact .inl h
        · simp at hn), this.short⟩) rfl

/-- A window after the data; a window with one reading. -/
example (train test : List StoredBuilding) :
    storedExperiment tensExp tensCfg "Mean" (tensHome "a_1" 4 (mk' (some 90000000000) none) :: train) test (meanClf false meanMethod) =
      .error .indexError ∧
    storedExperiment tensExp tensCfg "Mean" (tensHome "a_1" 4 (mk' (some 25000000000) none) :: train) test (meanClf false meanMethod) =
      .error .exception :=
  ⟨((C121_errors tensExp (k := tensCfg) (sp := 10) rfl (by omega) (by decide) "Mean" _ train test _).2.1 _ _ _ _ _ rfl tens_holds rfl
      (by simp)).1 (by decide +kernel),
    ((C121_errors tensExp (k := tensCfg) (sp := 10) rfl (by omega) (by decide) "Mean" _ train test _).2.1 _ _ _ _ _ rfl tens_holds rfl
      (by simp)).2 (by decide +kernel) (.inl (by simp))⟩

/-- C121. More readings than a chunk holds are not seen: with a chunk of two, `Mean` learns from three of the four readings, and the test
compares three. -/
theorem C121_first_chunk_counterexample :
    (storedExperiment tensExp { tensCfg with cs := 2 } "Mean" [tensHome "a_1" 4 (mk' none none)] [tensHome "a_1" 4 (mk' none none)]
      (meanClf false meanMethod)).map (fun r => (r.1.state, r.2.errors)) =
    .ok ([("fridge", ⟨3, 3⟩)], [[("Mean", [("fridge", 2)])]]) := by
  decide +kernel

end Nilmtk
