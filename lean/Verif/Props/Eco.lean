import Mathlib.Algebra.Order.Ring.Abs
import Mathlib.Algebra.Order.Field.Rat
import Mathlib.Tactic.NormNum
import Verif.Model.Eco
import Verif.Props.DataSet
import Verif.Props.Columns
import Verif.Props.DataportCsv
/-!
C103: the converter of the ECO dataset.
-/
namespace Nilmtk

/-! ### What is on the disk -/

/-- A name that the converter does not pass over. -/
def EcoVisible (name : Str) : Prop := ¬ ".txt".toList <:+: name ∧ ¬ ".".toList <+: name ∧ ¬ ".h5".toList <:+ name

/-- A folder of smart meters of building `b`. -/
def IsSmFolder (b : Nat) (name : Str) : Prop :=
  EcoVisible name ∧ pyInt (name.take 2) = some (b : Int) ∧ "sm_csv".toList <:+: name

/-- A folder of plugs of building `b`. -/
def IsPlugFolder (b : Nat) (name : Str) : Prop :=
  EcoVisible name ∧ pyInt (name.take 2) = some (b : Int) ∧ ¬ "sm_csv".toList <:+: name ∧ "plugs".toList <:+: name

/-- The CSV file `f` with readings of the smart meters of building `b`. -/
def SmCsv (tree : EcoTree) (b : Nat) (f : Str × List EcoRow) : Prop :=
  ∃ name content sub, (name, some content) ∈ tree ∧ IsSmFolder b name ∧ sub ∈ content ∧ f ∈ sub.2.files ∧ ".csv".toList <:+: f.1

/-- The directory `d` of a plug of building `b`, in the folder itself or in a folder with the number of the building in it. -/
def PlugDir (tree : EcoTree) (b : Nat) (d : Str) (files : EcoFiles) : Prop :=
  ∃ name content, (name, some content) ∈ tree ∧ IsPlugFolder b name ∧
    ((∃ sub, (d, sub) ∈ content ∧ sub.subs = [] ∧ files = sub.files) ∨
      ∃ sub, (name.take 2, sub) ∈ content ∧ (d, files) ∈ sub.subs)

/-- The CSV file `f` with readings of plug `i` of building `b`. -/
def PlugCsv (tree : EcoTree) (b i : Nat) (f : Str × List EcoRow) : Prop :=
  ∃ d files, PlugDir tree b d files ∧ pyInt d = some (i : Int) ∧ f ∈ files ∧ ".csv".toList <:+: f.1

/-- The two layouts of a folder of plugs: three directories of plugs or more, or one directory with all of them. -/
def PlugLayout (tree : EcoTree) : Prop :=
  ∀ name content b, (name, some content) ∈ tree → IsPlugFolder b name →
    (3 ≤ content.length ∧ ∀ e ∈ content, e.2.subs = []) ∨ ∃ sub, content = [(name.take 2, sub)] ∧ sub.subs ≠ []

/-- The columns of active power, current, voltage and phase angle of a phase in the files of the smart meters. -/
def ecoSmSource : Nat → List Nat
  | 1 => [2, 6, 9, 14]
  | 2 => [3, 7, 10, 15]
  | _ => [4, 8, 11, 16]

/-- The text of the day in the name of a file: the name without its last four characters. -/
def IsStem (stem name : Str) : Prop := ∃ ext, ext.length = 4 ∧ name = stem ++ ext

/-- Second `i` of the file `f` gives the reading `vals` of phase `p` at time `t`. -/
def SmReading (cfg : EcoConfig) (p : Nat) (f : Str × List EcoRow) (t : Int) (vals : List (Option Rat)) : Prop :=
  ∃ (stem : Str) (start : Int) (i : Nat) (r : EcoRow) (pw cur volt ang : Option Rat), IsStem stem f.1 ∧ cfg.day stem = some start ∧ f.2[i]? = some r ∧
    t = start + (i : Int) * 1000000000 ∧ (ecoSmSource p).map r = [pw, cur, volt, ang] ∧ pw ≠ some (-1) ∧
    vals = [pw, cur, volt, ang, pw.bind (fun a => ang.map (fun b => cfg.reactive a b))]

/-- Second `i` of the file `f` gives the reading `vals` of a plug at time `t`; dots in the name stand for colons. -/
def PlugReading (cfg : EcoConfig) (f : Str × List EcoRow) (t : Int) (vals : List (Option Rat)) : Prop :=
  ∃ (stem : Str) (start : Int) (i : Nat) (r : EcoRow), IsStem stem f.1 ∧ cfg.day (stem.map (fun c => if c = '.' then ':' else c)) = some start ∧ f.2[i]? = some r ∧
    t = start + (i : Int) * 1000000000 ∧ r 1 ≠ some (-1) ∧ vals = [r 1]

/-- The table of meter `m` of building `b` has this row. -/
def EcoHasRow (st : RawStore (List (Option Rat))) (b m : Nat) (cols : List (String × String)) (t : Int) (vals : List (Option Rat)) :
    Prop :=
  ∃ tab, st (meterKey b m) = some tab ∧ tab.columns = cols ∧ (t, vals) ∈ tab.rows

/-! ### Texts and loops -/

theorem hasText_iff (pat s : Str) : hasText pat s = true ↔ pat <:+: s := by
  induction s with
  | nil =>
    unfold hasText
    rw [List.isPrefixOf_iff_prefix, List.prefix_nil, List.infix_nil]
  | cons c cs ih =>
    unfold hasText
    rw [Bool.or_eq_true, List.isPrefixOf_iff_prefix, ih, List.infix_cons_iff]

theorem hasText_false (pat s : Str) : hasText pat s = false ↔ ¬ pat <:+: s := by
  rw [← hasText_iff, Bool.not_eq_true]

theorem ecoLoop_append {α σ : Type} (body : α → σ → σ × Option Err) (xs ys : List α) (s s'' : σ) :
    ecoLoop body (xs ++ ys) s = (s'', none) ↔ ∃ s', ecoLoop body xs s = (s', none) ∧ ecoLoop body ys s' = (s'', none) := by
  induction xs generalizing s with
  | nil => simp [ecoLoop]
  | cons x xs ih =>
    rw [List.cons_append, ecoLoop, ecoLoop]
    cases h : body x s with
    | mk s1 e =>
      cases e with
      | some e => simp
      | none =>
        simp only
        exact ih s1

/-- A table to be put or appended under a key. -/
abbrev EcoEv := Str × RawTable (List (Option Rat))

/-- The events applied to a store. -/
def ecoApply : List EcoEv → RawStore (List (Option Rat)) → RawStore (List (Option Rat)) × Option Err :=
  ecoLoop (fun e st => ecoStore st e.1 e.2)

/-- A body of a loop succeeds exactly if its argument is good and its events can be applied, and then does nothing else than applying
them and setting the marks. -/
def EcoRefines {α : Type} (body : α → EcoState → EcoState × Option Err) (ev : α → List EcoEv) (ok : α → Prop) (sm plug : α → Bool) :
    Prop :=
  ∀ a s s', body a s = (s', none) ↔
    ok a ∧ ecoApply (ev a) s.store = (s'.store, none) ∧ s'.sm = (s.sm || sm a) ∧ s'.plug = (s.plug || plug a)

theorem ecoLoop_refines {α : Type} {body : α → EcoState → EcoState × Option Err} {ev : α → List EcoEv} {ok : α → Prop}
    {sm plug : α → Bool} (h : EcoRefines body ev ok sm plug) :
    EcoRefines (ecoLoop body) (fun l => l.flatMap ev) (fun l => ∀ a ∈ l, ok a) (fun l => l.any sm) (fun l => l.any plug) := by
  intro l
  induction l with
  | nil =>
    intro s s'
    simp only [ecoLoop, List.flatMap_nil, List.any_nil, Bool.or_false, List.not_mem_nil, false_imp_iff, implies_true, true_and,
      ecoApply, Prod.mk.injEq, and_true]
    constructor
    · rintro rfl
      exact ⟨rfl, rfl, rfl⟩
    · rintro ⟨h1, h2, h3⟩
      cases s
      cases s'
      simp_all
  | cons a l ih =>
    intro s s'
    have hstep : ecoLoop body (a :: l) s = (s', none) ↔ ∃ s1, body a s = (s1, none) ∧ ecoLoop body l s1 = (s', none) := by
      conv_lhs => unfold ecoLoop
      cases hb : body a s with
      | mk s1 e =>
        cases e with
        | some e => simp
        | none => simp
    rw [hstep]
    simp only [List.flatMap_cons, List.any_cons, List.mem_cons, forall_eq_or_imp]
    unfold ecoApply
    rw [ecoLoop_append]
    constructor
    · rintro ⟨s1, h1, h2⟩
      obtain ⟨a1, a2, a3, a4⟩ := (h a s s1).1 h1
      obtain ⟨b1, b2, b3, b4⟩ := (ih s1 s').1 h2
      exact ⟨⟨a1, b1⟩, ⟨s1.store, a2, b2⟩, by rw [b3, a3, Bool.or_assoc], by rw [b4, a4, Bool.or_assoc]⟩
    · rintro ⟨⟨a1, b1⟩, ⟨st1, a2, b2⟩, h3, h4⟩
      refine ⟨⟨st1, s.sm || sm a, s.plug || plug a⟩, (h a _ _).2 ⟨a1, a2, rfl, rfl⟩, (ih _ _).2 ⟨b1, b2, ?_, ?_⟩⟩
      · rw [h3, Bool.or_assoc]
      · rw [h4, Bool.or_assoc]

/-! ### The bodies of the loops -/

/-- The rows of a day without those whose first value is -1. -/
def ecoKept (start : Int) (cells : List (List (Option Rat))) : List (Int × List (Option Rat)) :=
  (cells.zipIdx.map (fun r => (start + (r.2 : Int) * 1000000000, r.1))).filter (fun r => decide (r.2.headD none ≠ some (-1)))

/-- The text of the day in the name of a file of a smart meter. -/
def smStem (name : Str) : Str := name.take (name.length - 4)

/-- The text of the day in the name of a file of a plug. -/
def plugStem (name : Str) : Str := (smStem name).map (fun c => if c = '.' then ':' else c)

/-- What one phase of a file adds. -/
def smEv (cfg : EcoConfig) (b : Int) (f : Str × List EcoRow) (p : Nat) : EcoEv :=
  (meterKey b.toNat p, ⟨ecoSmColumns, ecoKept ((cfg.day (smStem f.1)).getD 0) (f.2.map (ecoSmCells cfg p))⟩)

/-- What a file of a plug adds. -/
def plugEv (cfg : EcoConfig) (key : Str) (f : Str × List EcoRow) : EcoEv :=
  (key, ⟨[("power", "active")], ecoKept ((cfg.day (plugStem f.1)).getD 0) (f.2.map (fun r => [r 1]))⟩)

/-- A file with a readable day and a row for every second. -/
def SmOk (n : Nat) (cfg : EcoConfig) (f : Str × List EcoRow) : Prop := (cfg.day (smStem f.1)).isSome = true ∧ f.2.length = n

/-- The same for a plug. -/
def PlugOk (n : Nat) (cfg : EcoConfig) (f : Str × List EcoRow) : Prop := (cfg.day (plugStem f.1)).isSome = true ∧ f.2.length = n

theorem ecoKey_ok (b m : Int) : (1 ≤ b ∧ 1 ≤ m → ecoKey b m = .ok (meterKey b.toNat m.toNat)) ∧
    (¬ (1 ≤ b ∧ 1 ≤ m) → ∃ e, ecoKey b m = .error e) := by
  constructor
  · rintro ⟨hb, hm⟩
    obtain ⟨h1, h2⟩ := key_numbers b.toNat m.toNat (by omega) (by omega)
    rw [Int.toNat_of_nonneg (by omega), Int.toNat_of_nonneg (by omega)] at h1 h2
    unfold ecoKey
    rw [h1]
    exact h2
  · intro h
    refine ⟨.assertionError, ?_⟩
    unfold ecoKey Key.ofNumbers Key.check
    rw [if_neg]
    rintro ⟨h1, h2⟩
    exact h ⟨h1, h2 m rfl⟩

theorem ecoApply_one (e : EcoEv) (st : RawStore (List (Option Rat))) : ecoApply [e] st = ecoStore st e.1 e.2 := by
  unfold ecoApply ecoLoop
  cases h : ecoStore st e.1 e.2 with
  | mk s o => cases o <;> simp [ecoLoop]

theorem ecoPhase_refines (n : Nat) (cfg : EcoConfig) (b : Int) (f : Str × List EcoRow) (p : Nat) (hp : 1 ≤ p) (s s' : EcoState) :
    ecoPhase n cfg b f.1 f.2 p s = (s', none) ↔
      (1 ≤ b ∧ SmOk n cfg f) ∧ ecoApply [smEv cfg b f p] s.store = (s'.store, none) ∧ s'.sm = s.sm ∧ s'.plug = s.plug := by
  rw [ecoApply_one]
  unfold ecoPhase SmOk smEv
  by_cases hb : 1 ≤ b
  · rw [(ecoKey_ok b p).1 ⟨hb, by omega⟩]
    simp only [Int.toNat_natCast]
    unfold ecoIndex smStem
    cases hd : cfg.day (f.1.take (f.1.length - 4)) with
    | none => simp
    | some t =>
      simp only [List.length_map, Option.isSome_some, true_and, Option.getD_some]
      by_cases hl : f.2.length = n
      · rw [if_pos hl]
        simp only [hb, hl, true_and]
        unfold ecoKept
        cases hs : ecoStore s.store (meterKey b.toNat p) ⟨ecoSmColumns, ((f.2.map (ecoSmCells cfg p)).zipIdx.map
            (fun r => (t + (r.2 : Int) * 1000000000, r.1))).filter (fun r => decide (r.2.headD none ≠ some (-1)))⟩ with
        | mk st e =>
          simp only [Prod.mk.injEq]
          constructor
          · rintro ⟨rfl, rfl⟩
            exact ⟨⟨rfl, rfl⟩, rfl, rfl⟩
          · rintro ⟨⟨h1, h2⟩, h3, h4⟩
            refine ⟨?_, h2⟩
            cases s'
            simp_all
      · rw [if_neg hl]
        simp [hl]
  · obtain ⟨e, he⟩ := (ecoKey_ok b p).2 (fun h => hb h.1)
    rw [he]
    simp [hb]

theorem ecoSmFile_refines (n : Nat) (cfg : EcoConfig) (b : Int) :
    EcoRefines (ecoSmFile n cfg b) (fun f => [1, 2, 3].map (smEv cfg b f)) (fun f => 1 ≤ b ∧ SmOk n cfg f) (fun _ => true)
      (fun _ => false) := by
  intro f s s'
  have key : ∀ (l : List Nat) (s s' : EcoState), (∀ p ∈ l, 1 ≤ p) → l ≠ [] →
      (ecoLoop (ecoPhase n cfg b f.1 f.2) l s = (s', none) ↔
        (1 ≤ b ∧ SmOk n cfg f) ∧ ecoApply (l.map (smEv cfg b f)) s.store = (s'.store, none) ∧ s'.sm = s.sm ∧ s'.plug = s.plug) := by
    intro l
    induction l with
    | nil => intro s s' _ h; exact absurd rfl h
    | cons p l ih =>
      intro s s' hp _
      have hstep : ecoLoop (ecoPhase n cfg b f.1 f.2) (p :: l) s = (s', none) ↔
          ∃ s1, ecoPhase n cfg b f.1 f.2 p s = (s1, none) ∧ ecoLoop (ecoPhase n cfg b f.1 f.2) l s1 = (s', none) := by
        conv_lhs => unfold ecoLoop
        cases hb : ecoPhase n cfg b f.1 f.2 p s with
        | mk s1 e => cases e <;> simp
      have happ : ecoApply ((p :: l).map (smEv cfg b f)) s.store = (s'.store, none) ↔
          ∃ st1, ecoApply [smEv cfg b f p] s.store = (st1, none) ∧ ecoApply (l.map (smEv cfg b f)) st1 = (s'.store, none) := by
        rw [List.map_cons, ← List.singleton_append]
        exact ecoLoop_append _ _ _ _ _
      rw [hstep, happ]
      constructor
      · rintro ⟨s1, h1, h2⟩
        obtain ⟨a1, a2, a3, a4⟩ := (ecoPhase_refines n cfg b f p (hp p (by simp)) s s1).1 h1
        cases l with
        | nil =>
          simp only [ecoLoop, Prod.mk.injEq, and_true] at h2
          subst h2
          exact ⟨a1, ⟨s1.store, a2, by simp [ecoApply, ecoLoop]⟩, a3, a4⟩
        | cons q l =>
          obtain ⟨_, b2, b3, b4⟩ := (ih s1 s' (fun x hx => hp x (List.mem_cons_of_mem _ hx)) (by simp)).1 h2
          exact ⟨a1, ⟨s1.store, a2, b2⟩, by rw [b3, a3], by rw [b4, a4]⟩
      · rintro ⟨a1, ⟨st1, a2, b2⟩, h3, h4⟩
        refine ⟨⟨st1, s.sm, s.plug⟩, (ecoPhase_refines n cfg b f p (hp p (by simp)) _ _).2 ⟨a1, a2, rfl, rfl⟩, ?_⟩
        cases l with
        | nil =>
          simp only [List.map_nil, ecoApply, ecoLoop, Prod.mk.injEq, and_true] at b2
          simp only [ecoLoop, Prod.mk.injEq, and_true]
          cases s'
          simp_all
        | cons q l =>
          exact (ih _ s' (fun x hx => hp x (List.mem_cons_of_mem _ hx)) (by simp)).2 ⟨a1, b2, h3, h4⟩
  unfold ecoSmFile
  rw [key [1, 2, 3] _ s' (by simp) (by simp)]
  simp

theorem ecoPlugFile_refines (n : Nat) (cfg : EcoConfig) (key : Str) :
    EcoRefines (ecoPlugFile n cfg key) (fun f => [plugEv cfg key f]) (PlugOk n cfg) (fun _ => false) (fun _ => true) := by
  intro f s s'
  rw [ecoApply_one]
  unfold ecoPlugFile PlugOk plugEv ecoIndex plugStem smStem
  cases hd : cfg.day ((f.1.take (f.1.length - 4)).map (fun c => if c = '.' then ':' else c)) with
  | none => simp
  | some t =>
    simp only [List.length_map, Option.isSome_some, true_and, Option.getD_some]
    by_cases hl : f.2.length = n
    · rw [if_pos hl]
      simp only [hl, true_and]
      unfold ecoKept
      cases hs : ecoStore s.store key ⟨[("power", "active")], ((f.2.map (fun r => [r 1])).zipIdx.map
          (fun r => (t + (r.2 : Int) * 1000000000, r.1))).filter (fun r => decide (r.2.headD none ≠ some (-1)))⟩ with
      | mk st e =>
        simp only [Prod.mk.injEq, Bool.or_false, Bool.or_true]
        constructor
        · rintro ⟨rfl, rfl⟩
          exact ⟨⟨rfl, rfl⟩, rfl, rfl⟩
        · rintro ⟨⟨h1, h2⟩, h3, h4⟩
          refine ⟨?_, h2⟩
          cases s'
          simp_all
    · rw [if_neg hl]
      simp [hl]

/-- What a directory of a smart meter adds. -/
def smDirEvs (cfg : EcoConfig) (b : Int) (fl : Str × EcoFiles) : List EcoEv :=
  (ecoCsvs fl.2).flatMap (fun f => [1, 2, 3].map (smEv cfg b f))

/-- What a directory of a plug adds. -/
def plugDirEvs (cfg : EcoConfig) (b : Int) (fl : Str × EcoFiles) : List EcoEv :=
  (ecoCsvs fl.2).map (plugEv cfg (meterKey b.toNat (((pyInt fl.1).getD 0) + 3).toNat))

/-- A good directory. -/
def EcoDirOk (n : Nat) (cfg : EcoConfig) (b : Int) (plugs : Bool) (fl : Str × EcoFiles) : Prop :=
  if plugs = true then ∃ i, pyInt fl.1 = some i ∧ 1 ≤ b ∧ 1 ≤ i + 3 ∧ ecoCsvs fl.2 ≠ [] ∧ ∀ f ∈ ecoCsvs fl.2, PlugOk n cfg f
  else ∀ f ∈ ecoCsvs fl.2, 1 ≤ b ∧ SmOk n cfg f

theorem any_const_true {α : Type} (l : List α) : l.any (fun _ => true) = !l.isEmpty := by cases l <;> simp

theorem any_const_false {α : Type} (l : List α) : l.any (fun _ => false) = false := by simp

theorem ecoSubfolder_refines (n : Nat) (cfg : EcoConfig) (b : Int) (plugs : Bool) :
    EcoRefines (ecoSubfolder n cfg b plugs) (fun fl => if plugs = true then plugDirEvs cfg b fl else smDirEvs cfg b fl)
      (EcoDirOk n cfg b plugs) (fun fl => !plugs && !(ecoCsvs fl.2).isEmpty) (fun fl => plugs && !(ecoCsvs fl.2).isEmpty) := by
  intro fl s s'
  unfold ecoSubfolder EcoDirOk
  cases plugs with
  | false =>
    simp only [if_true, Bool.false_eq_true, if_false, Bool.not_false, Bool.true_and, Bool.false_and]
    have := ecoLoop_refines (ecoSmFile_refines n cfg b) (ecoCsvs fl.2) s s'
    simp only at this
    rw [any_const_true, any_const_false] at this
    exact this
  | true =>
    simp only [Bool.true_eq_false, if_false, if_true, Bool.not_true, Bool.false_and, Bool.true_and]
    unfold plugDirEvs
    cases hi : pyInt fl.1 with
    | none => simp
    | some i =>
      simp only [Option.some.injEq, exists_eq_left', Option.getD_some]
      by_cases hk : 1 ≤ b ∧ 1 ≤ i + 3
      · rw [(ecoKey_ok b (i + 3)).1 hk]
        simp only
        cases hc : (ecoCsvs fl.2).isEmpty with
        | true =>
          rw [List.isEmpty_iff] at hc
          simp [hc]
        | false =>
          simp only [Bool.false_eq_true, if_false]
          have := ecoLoop_refines (ecoPlugFile_refines n cfg (meterKey b.toNat (i + 3).toNat)) (ecoCsvs fl.2) s s'
          simp only at this
          rw [any_const_true, any_const_false, hc] at this
          rw [this, ← List.map_eq_flatMap]
          have hne : ecoCsvs fl.2 ≠ [] := by
            intro h
            rw [h] at hc
            simp at hc
          constructor
          · rintro ⟨a1, a2⟩
            exact ⟨⟨hk.1, hk.2, hne, a1⟩, a2⟩
          · rintro ⟨⟨_, _, _, a1⟩, a2⟩
            exact ⟨a1, a2⟩
      · obtain ⟨e, he⟩ := (ecoKey_ok b (i + 3)).2 hk
        rw [he]
        simp only [Prod.mk.injEq, reduceCtorEq, and_false, false_iff]
        rintro ⟨⟨h1, h2, _⟩, _⟩
        exact hk ⟨h1, h2⟩

/-- A folder that the converter passes over. -/
def EcoSkips (name : Str) : Bool := decide (name.head? = some '.') || decide (name.drop (name.length - 3) = ".h5".toList)

/-- The kind of a folder: `some true` for plugs, `some false` for smart meters, `none` for one that is passed over. -/
def ecoKind (name : Str) : Option Bool :=
  if EcoSkips name = true then none
  else if hasText "sm_csv".toList name = true then some false
  else if hasText "plugs".toList name = true then some true
  else none

/-- The directories of a folder with their kind and building. -/
def ecoDirsOf (f : Str × Option (List (Str × EcoSub))) : List (Str × EcoFiles) :=
  match ecoKind f.1, f.2 with
  | some plugs, some content =>
    match ecoDirList plugs f.1 content with
    | .ok dirs => dirs
    | .error _ => []
  | _, _ => []

/-- What a folder adds. -/
def folderEvs (cfg : EcoConfig) (f : Str × Option (List (Str × EcoSub))) : List EcoEv :=
  (ecoDirsOf f).flatMap (fun fl => if ecoKind f.1 = some true then plugDirEvs cfg ((pyInt (f.1.take 2)).getD 0) fl
    else smDirEvs cfg ((pyInt (f.1.take 2)).getD 0) fl)

/-- A good folder. -/
def EcoFolderOk (n : Nat) (cfg : EcoConfig) (f : Str × Option (List (Str × EcoSub))) : Prop :=
  EcoSkips f.1 = true ∨ (pyInt (f.1.take 2)).isSome = true ∧ (ecoKind f.1 = none ∨
    ∃ plugs content dirs, ecoKind f.1 = some plugs ∧ f.2 = some content ∧ ecoDirList plugs f.1 content = .ok dirs ∧
      ∀ fl ∈ dirs, EcoDirOk n cfg ((pyInt (f.1.take 2)).getD 0) plugs fl)

theorem ecoFolder_refines (n : Nat) (cfg : EcoConfig) :
    EcoRefines (ecoFolder n cfg) (folderEvs cfg) (EcoFolderOk n cfg)
      (fun f => decide (ecoKind f.1 = some false) && (ecoDirsOf f).any (fun fl => !(ecoCsvs fl.2).isEmpty))
      (fun f => decide (ecoKind f.1 = some true) && (ecoDirsOf f).any (fun fl => !(ecoCsvs fl.2).isEmpty)) := by
  intro f s s'
  have hnil : ∀ {P : Prop}, P → (((s, (none : Option Err)) = (s', none)) ↔ P ∧ ecoApply [] s.store = (s'.store, none) ∧ s'.sm = s.sm ∧
      s'.plug = s.plug) := by
    intro P hP
    simp only [hP, true_and, ecoApply, ecoLoop, Prod.mk.injEq, and_true]
    constructor
    · rintro rfl
      exact ⟨rfl, rfl, rfl⟩
    · rintro ⟨h1, h2, h3⟩
      cases s
      cases s'
      simp_all
  unfold ecoFolder EcoFolderOk folderEvs ecoDirsOf
  beta_reduce
  by_cases hskip : EcoSkips f.1 = true
  · have h1 : f.1.head? = some '.' ∨ f.1.drop (f.1.length - 3) = ".h5".toList := by
      unfold EcoSkips at hskip
      rw [Bool.or_eq_true, decide_eq_true_eq, decide_eq_true_eq] at hskip
      exact hskip
    have h2 : ecoKind f.1 = none := by
      unfold ecoKind
      rw [if_pos hskip]
    rw [if_pos h1, h2]
    simp only [List.flatMap_nil, reduceCtorEq, decide_false, Bool.false_and, Bool.or_false]
    refine hnil ?_
    exact Or.inl hskip
  · have h1 : ¬ (f.1.head? = some '.' ∨ f.1.drop (f.1.length - 3) = ".h5".toList) := by
      unfold EcoSkips at hskip
      rw [Bool.or_eq_true, decide_eq_true_eq, decide_eq_true_eq] at hskip
      exact hskip
    rw [if_neg h1]
    simp only [hskip, Bool.false_eq_true, false_or]
    cases hb : pyInt (f.1.take 2) with
    | none => simp
    | some b =>
      simp only [Option.isSome_some, true_and, Option.getD_some]
      by_cases hn : hasText "sm_csv".toList f.1 = false ∧ hasText "plugs".toList f.1 = false
      · have h2 : ecoKind f.1 = none := by
          unfold ecoKind
          rw [if_neg hskip, hn.1, hn.2]
          simp
        rw [if_pos hn, h2]
        simp only [List.flatMap_nil, reduceCtorEq, decide_false, Bool.false_and, Bool.or_false]
        refine hnil ?_
        simp
      · rw [if_neg hn]
        have h2 : ecoKind f.1 = some (!hasText "sm_csv".toList f.1) := by
          unfold ecoKind
          rw [if_neg hskip]
          cases ha : hasText "sm_csv".toList f.1 with
          | true => rfl
          | false =>
            rw [ha] at hn
            cases hc : hasText "plugs".toList f.1 with
            | true => rfl
            | false => exact absurd ⟨rfl, hc⟩ hn
        rw [h2]
        generalize (!hasText "sm_csv".toList f.1) = plugs
        cases hf : f.2 with
        | none => simp
        | some content =>
          simp only [Option.some.injEq, reduceCtorEq, false_or]
          cases hd : ecoDirList plugs f.1 content with
          | error e =>
            simp only [Prod.mk.injEq, reduceCtorEq, and_false, false_iff]
            rintro ⟨⟨pl, c, dirs, rfl, rfl, h5, _⟩, _⟩
            rw [hd] at h5
            cases h5
          | ok dirs =>
            simp only
            have := ecoLoop_refines (ecoSubfolder_refines n cfg b plugs) dirs s s'
            rw [this]
            have e1 : (∃ pl c ds, plugs = pl ∧ content = c ∧ ecoDirList pl f.1 c = .ok ds ∧ ∀ fl ∈ ds, EcoDirOk n cfg b pl fl) ↔
                ∀ fl ∈ dirs, EcoDirOk n cfg b plugs fl := by
              constructor
              · rintro ⟨pl, c, ds, rfl, rfl, h5, h6⟩
                rw [hd] at h5
                cases h5
                exact h6
              · intro h
                exact ⟨plugs, content, dirs, rfl, rfl, hd, h⟩
            rw [e1]
            cases plugs <;> simp [any_const_false]

/-! ### The store -/

/-- The rows of the table under a key. -/
def ecoRowsAt (st : RawStore (List (Option Rat))) (k : Str) : List (Int × List (Option Rat)) := ((st k).map RawTable.rows).getD []

theorem ecoStore_rows {st st' : RawStore (List (Option Rat))} {e : EcoEv} (h : ecoStore st e.1 e.2 = (st', none))
    (hne : ∀ k t, st k = some t → t.rows ≠ []) :
    (∀ k t, st' k = some t → t.rows ≠ []) ∧
    ∀ k, ecoRowsAt st' k = ecoRowsAt st k ++ (if e.1 = k then e.2.rows else []) ∧
      (∀ t, st k = some t → ∃ t', st' k = some t' ∧ t'.columns = t.columns) ∧
      (e.1 = k → e.2.rows ≠ [] → ∃ t', st' k = some t' ∧ t'.columns = e.2.columns) := by
  unfold ecoStore at h
  by_cases he : e.2.rows = []
  · rw [he] at h
    simp only [List.isEmpty_nil, if_true, Prod.mk.injEq, and_true] at h
    subst h
    refine ⟨hne, fun k => ⟨by rw [he]; simp, fun t ht => ⟨t, ht, rfl⟩, fun _ h2 => absurd he h2⟩⟩
  · have hf : e.2.rows.isEmpty = false := by
      cases hr : e.2.rows with
      | nil => exact absurd hr he
      | cons _ _ => rfl
    rw [hf] at h
    simp only [Bool.false_eq_true, if_false] at h
    cases hk : st e.1 with
    | none =>
      rw [hk] at h
      simp only [Prod.mk.injEq, and_true] at h
      subst h
      refine ⟨?_, fun k => ?_⟩
      · intro k t ht
        unfold RawStore.put at ht
        by_cases hkk : k = e.1
        · rw [if_pos hkk] at ht
          cases ht
          exact he
        · rw [if_neg hkk] at ht
          exact hne k t ht
      · unfold ecoRowsAt RawStore.put
        by_cases hkk : k = e.1
        · subst hkk
          rw [if_pos rfl, hk, if_pos rfl]
          exact ⟨by simp, fun t ht => by simp at ht, fun _ _ => ⟨e.2, rfl, rfl⟩⟩
        · rw [if_neg hkk, if_neg (Ne.symm hkk)]
          exact ⟨by simp, fun t ht => ⟨t, ht, rfl⟩, fun h1 _ => absurd h1.symm hkk⟩
    | some t0 =>
      rw [hk] at h
      simp only at h
      by_cases hcol : t0.columns = e.2.columns
      · rw [if_pos hcol] at h
        simp only [Prod.mk.injEq, and_true] at h
        subst h
        refine ⟨?_, fun k => ?_⟩
        · intro k t ht
          unfold RawStore.put at ht
          by_cases hkk : k = e.1
          · rw [if_pos hkk] at ht
            cases ht
            simp [he]
          · rw [if_neg hkk] at ht
            exact hne k t ht
        · unfold ecoRowsAt RawStore.put
          by_cases hkk : k = e.1
          · subst hkk
            rw [if_pos rfl, hk, if_pos rfl]
            refine ⟨by simp, fun t ht => ⟨_, rfl, ?_⟩, fun _ _ => ⟨_, rfl, hcol⟩⟩
            cases ht
            rfl
          · rw [if_neg hkk, if_neg (Ne.symm hkk)]
            exact ⟨by simp, fun t ht => ⟨t, ht, rfl⟩, fun h1 _ => absurd h1.symm hkk⟩
      · rw [if_neg hcol] at h
        simp at h

theorem ecoApply_cons (e : EcoEv) (es : List EcoEv) (st st' : RawStore (List (Option Rat))) :
    ecoApply (e :: es) st = (st', none) ↔ ∃ st1, ecoStore st e.1 e.2 = (st1, none) ∧ ecoApply es st1 = (st', none) := by
  unfold ecoApply
  conv_lhs => unfold ecoLoop
  cases h : ecoStore st e.1 e.2 with
  | mk s o => cases o <;> simp

theorem ecoApply_rows {evs : List EcoEv} : ∀ {st st' : RawStore (List (Option Rat))}, ecoApply evs st = (st', none) →
    (∀ k t, st k = some t → t.rows ≠ []) →
    (∀ k t, st' k = some t → t.rows ≠ []) ∧
    ∀ k, ecoRowsAt st' k = ecoRowsAt st k ++ evs.flatMap (fun e => if e.1 = k then e.2.rows else []) ∧
      (∀ t, st k = some t → ∃ t', st' k = some t' ∧ t'.columns = t.columns) ∧
      (∀ e ∈ evs, e.1 = k → e.2.rows ≠ [] → ∃ t', st' k = some t' ∧ t'.columns = e.2.columns) := by
  induction evs with
  | nil =>
    intro st st' h hne
    simp only [ecoApply, ecoLoop, Prod.mk.injEq, and_true] at h
    subst h
    exact ⟨hne, fun k => ⟨by simp, fun t ht => ⟨t, ht, rfl⟩, fun e he => by simp at he⟩⟩
  | cons e es ih =>
    intro st st' h hne
    obtain ⟨st1, h1, h2⟩ := (ecoApply_cons e es st st').1 h
    obtain ⟨a1, a2⟩ := ecoStore_rows h1 hne
    obtain ⟨b1, b2⟩ := ih h2 a1
    refine ⟨b1, fun k => ⟨?_, ?_, ?_⟩⟩
    · rw [(b2 k).1, (a2 k).1, List.flatMap_cons, List.append_assoc]
    · intro t ht
      obtain ⟨t1, ht1, hc1⟩ := (a2 k).2.1 t ht
      obtain ⟨t2, ht2, hc2⟩ := (b2 k).2.1 t1 ht1
      exact ⟨t2, ht2, hc2.trans hc1⟩
    · intro x hx hk hr
      rcases List.mem_cons.1 hx with rfl | hx
      · obtain ⟨t1, ht1, hc1⟩ := (a2 k).2.2 hk hr
        obtain ⟨t2, ht2, hc2⟩ := (b2 k).2.1 t1 ht1
        exact ⟨t2, ht2, hc2.trans hc1⟩
      · exact (b2 k).2.2 x hx hk hr

theorem ecoApply_total : ∀ (evs : List EcoEv) (st : RawStore (List (Option Rat))),
    (∀ e ∈ evs, ∀ e' ∈ evs, e.1 = e'.1 → e.2.columns = e'.2.columns) →
    (∀ k t, st k = some t → ∀ e ∈ evs, e.1 = k → t.columns = e.2.columns) → ∃ st', ecoApply evs st = (st', none) := by
  intro evs
  induction evs with
  | nil => intro st _ _; exact ⟨st, rfl⟩
  | cons e es ih =>
    intro st h1 h2
    have hstep : ∃ st1, ecoStore st e.1 e.2 = (st1, none) ∧
        ∀ k t, st1 k = some t → ∀ x ∈ es, x.1 = k → t.columns = x.2.columns := by
      unfold ecoStore
      cases hr : e.2.rows.isEmpty with
      | true => exact ⟨st, rfl, fun k t ht x hx => h2 k t ht x (List.mem_cons_of_mem _ hx)⟩
      | false =>
        simp only [Bool.false_eq_true, if_false]
        cases hk : st e.1 with
        | none =>
          refine ⟨_, rfl, ?_⟩
          intro k t ht x hx hxk
          unfold RawStore.put at ht
          by_cases hkk : k = e.1
          · rw [if_pos hkk] at ht
            cases ht
            exact h1 e (by simp) x (List.mem_cons_of_mem _ hx) (by rw [hxk, hkk])
          · rw [if_neg hkk] at ht
            exact h2 k t ht x (List.mem_cons_of_mem _ hx) hxk
        | some t0 =>
          simp only
          rw [if_pos (h2 e.1 t0 hk e (by simp) rfl)]
          refine ⟨_, rfl, ?_⟩
          intro k t ht x hx hxk
          unfold RawStore.put at ht
          by_cases hkk : k = e.1
          · rw [if_pos hkk] at ht
            cases ht
            exact h2 e.1 t0 hk x (List.mem_cons_of_mem _ hx) (by rw [hxk, hkk])
          · rw [if_neg hkk] at ht
            exact h2 k t ht x (List.mem_cons_of_mem _ hx) hxk
    obtain ⟨st1, a1, a2⟩ := hstep
    obtain ⟨st', b⟩ := ih st1 (fun x hx y hy => h1 x (List.mem_cons_of_mem _ hx) y (List.mem_cons_of_mem _ hy)) a2
    exact ⟨st', (ecoApply_cons e es st st').2 ⟨st1, a1, b⟩⟩

/-- Everything the converter adds, in order. -/
def ecoEvs (cfg : EcoConfig) (tree : EcoTree) : List EcoEv := (ecoFolders tree).flatMap (folderEvs cfg)

theorem ecoConvert_iff (n : Nat) (cfg : EcoConfig) (tree : EcoTree) (st : RawStore (List (Option Rat))) :
    ecoConvert n cfg tree = (st, none) ↔
      (∀ f ∈ ecoFolders tree, EcoFolderOk n cfg f) ∧ ecoApply (ecoEvs cfg tree) (fun _ => none) = (st, none) ∧
      (∃ f ∈ ecoFolders tree, ecoKind f.1 = some false ∧ ∃ fl ∈ ecoDirsOf f, ecoCsvs fl.2 ≠ []) ∧
      ∃ f ∈ ecoFolders tree, ecoKind f.1 = some true ∧ ∃ fl ∈ ecoDirsOf f, ecoCsvs fl.2 ≠ [] := by
  have hany : ∀ b : Bool, (ecoFolders tree).any (fun f => decide (ecoKind f.1 = some b) && (ecoDirsOf f).any
      (fun fl => !(ecoCsvs fl.2).isEmpty)) = true ↔
      ∃ f ∈ ecoFolders tree, ecoKind f.1 = some b ∧ ∃ fl ∈ ecoDirsOf f, ecoCsvs fl.2 ≠ [] := by
    intro b
    simp only [List.any_eq_true, Bool.and_eq_true, decide_eq_true_eq, Bool.not_eq_true', List.isEmpty_eq_false_iff]
  rw [← hany, ← hany]
  unfold ecoConvert
  have href := ecoLoop_refines (ecoFolder_refines n cfg) (ecoFolders tree) ⟨fun _ => none, false, false⟩
  cases hl : ecoLoop (ecoFolder n cfg) (ecoFolders tree) ⟨fun _ => none, false, false⟩ with
  | mk s o =>
    cases o with
    | some e =>
      simp only [Prod.mk.injEq, reduceCtorEq, and_false, false_iff]
      rintro ⟨h1, h2, h3, h4⟩
      have := (href ⟨st, true, true⟩).2 ⟨h1, h2, by simp only [Bool.false_or]; exact h3.symm, by simp only [Bool.false_or]; exact h4.symm⟩
      rw [hl] at this
      simp at this
    | none =>
      obtain ⟨h1, h2, h3, h4⟩ := (href s).1 hl
      simp only [Bool.false_or] at h3 h4
      simp only [Prod.mk.injEq]
      rw [← h3, ← h4]
      constructor
      · rintro ⟨rfl, h5⟩
        refine ⟨h1, h2, ?_, ?_⟩
        · by_contra hc
          rw [Bool.not_eq_true] at hc
          rw [if_pos (Or.inr hc)] at h5
          cases h5
        · by_contra hc
          rw [Bool.not_eq_true] at hc
          rw [if_pos (Or.inl hc)] at h5
          cases h5
      · rintro ⟨_, h6, h7, h8⟩
        refine ⟨?_, by rw [h7, h8]; simp⟩
        unfold ecoEvs at h6
        rw [h2] at h6
        simpa using h6

/-! ### The events and the disk -/

theorem ecoFolders_mem (tree : EcoTree) (f : Str × Option (List (Str × EcoSub))) :
    f ∈ ecoFolders tree ↔ f ∈ tree ∧ ¬ ".txt".toList <:+: f.1 := by
  unfold ecoFolders
  rw [(List.perm_insertionSort _ _).mem_iff, List.mem_filter, Bool.not_eq_true', hasText_false]

theorem ecoCsvs_mem (files : EcoFiles) (f : Str × List EcoRow) : f ∈ ecoCsvs files ↔ f ∈ files ∧ ".csv".toList <:+: f.1 := by
  unfold ecoCsvs
  rw [(List.perm_insertionSort _ _).mem_iff, List.mem_filter, hasText_iff]

theorem ecoSkips_iff (name : Str) : EcoSkips name = true ↔ ".".toList <+: name ∨ ".h5".toList <:+ name := by
  unfold EcoSkips
  rw [Bool.or_eq_true, decide_eq_true_eq, decide_eq_true_eq, List.suffix_iff_eq_drop]
  have h1 : name.head? = some '.' ↔ ".".toList <+: name := by
    cases name with
    | nil => simp
    | cons c cs =>
      have : ".".toList = ['.'] := rfl
      rw [this]
      simp [List.cons_prefix_cons, eq_comm]
  rw [h1]
  constructor
  · rintro (h | h)
    · exact .inl h
    · exact .inr h.symm
  · rintro (h | h)
    · exact .inl h
    · exact .inr h.symm

theorem isSmFolder_iff (b : Nat) (name : Str) : IsSmFolder b name ↔
    ¬ ".txt".toList <:+: name ∧ ecoKind name = some false ∧ pyInt (name.take 2) = some (b : Int) := by
  unfold IsSmFolder EcoVisible ecoKind
  have hs := ecoSkips_iff name
  have h1 := hasText_iff "sm_csv".toList name
  by_cases a : EcoSkips name = true
  · rw [if_pos a]
    rw [hs] at a
    constructor
    · rintro ⟨⟨_, h2, h3⟩, _⟩
      exact absurd a (by rintro (h | h) <;> [exact h2 h; exact h3 h])
    · rintro ⟨_, h, _⟩
      cases h
  · rw [if_neg a]
    rw [hs, not_or] at a
    by_cases c : hasText "sm_csv".toList name = true
    · rw [if_pos c]
      exact ⟨fun h => ⟨h.1.1, rfl, h.2.1⟩, fun h => ⟨⟨h.1, a.1, a.2⟩, h.2.2, h1.1 c⟩⟩
    · rw [if_neg c]
      constructor
      · rintro ⟨_, _, h⟩
        exact absurd (h1.2 h) c
      · rintro ⟨_, h, _⟩
        split at h <;> cases h

theorem isPlugFolder_iff (b : Nat) (name : Str) : IsPlugFolder b name ↔
    ¬ ".txt".toList <:+: name ∧ ecoKind name = some true ∧ pyInt (name.take 2) = some (b : Int) := by
  unfold IsPlugFolder EcoVisible ecoKind
  have hs := ecoSkips_iff name
  have h1 := hasText_iff "sm_csv".toList name
  have h2 := hasText_iff "plugs".toList name
  by_cases a : EcoSkips name = true
  · rw [if_pos a]
    rw [hs] at a
    constructor
    · rintro ⟨⟨_, h2, h3⟩, _⟩
      exact absurd a (by rintro (h | h) <;> [exact h2 h; exact h3 h])
    · rintro ⟨_, h, _⟩
      cases h
  · rw [if_neg a]
    rw [hs, not_or] at a
    by_cases c : hasText "sm_csv".toList name = true
    · rw [if_pos c]
      constructor
      · rintro ⟨_, _, h, _⟩
        exact absurd (h1.1 c) h
      · rintro ⟨_, h, _⟩
        cases h
    · rw [if_neg c]
      by_cases d : hasText "plugs".toList name = true
      · rw [if_pos d]
        exact ⟨fun h => ⟨h.1.1, rfl, h.2.1⟩, fun h => ⟨⟨h.1, a.1, a.2⟩, h.2.2, fun hc => c (h1.2 hc), h2.1 d⟩⟩
      · rw [if_neg d]
        constructor
        · rintro ⟨_, _, _, h⟩
          exact absurd (h2.2 h) d
        · rintro ⟨_, h, _⟩
          cases h

theorem ecoDirsOf_sm {name : Str} {content : List (Str × EcoSub)} (hk : ecoKind name = some false) (fl : Str × EcoFiles) :
    fl ∈ ecoDirsOf (name, some content) ↔ ∃ sub ∈ content, fl = (sub.1, sub.2.files) := by
  unfold ecoDirsOf ecoDirList
  simp only [hk, Bool.false_eq_true, false_and, if_false]
  rw [List.mem_map]
  simp only [(List.perm_insertionSort _ _).mem_iff, eq_comm]

theorem ecoDirsOf_plug {tree : EcoTree} (hl : PlugLayout tree) {name : Str} {content : List (Str × EcoSub)}
    (hm : (name, some content) ∈ tree) {b : Nat} (hp : IsPlugFolder b name) (fl : Str × EcoFiles) :
    (∃ dirs, ecoDirList true name content = .ok dirs) ∧
    (fl ∈ ecoDirsOf (name, some content) ↔
      ((∃ sub, (fl.1, sub) ∈ content ∧ sub.subs = [] ∧ fl.2 = sub.files) ∨ ∃ sub, (name.take 2, sub) ∈ content ∧ fl ∈ sub.subs)) := by
  have hk := ((isPlugFolder_iff b name).1 hp).2.1
  unfold ecoDirsOf ecoDirList
  simp only [hk, true_and, List.length_insertionSort]
  rcases hl name content b hm hp with ⟨h3, h4⟩ | ⟨sub, rfl, h5⟩
  · rw [if_neg (by omega)]
    refine ⟨⟨_, rfl⟩, ?_⟩
    simp only [List.mem_map, (List.perm_insertionSort _ _).mem_iff]
    constructor
    · rintro ⟨e, he, rfl⟩
      exact .inl ⟨e.2, he, h4 e he, rfl⟩
    · rintro (⟨sub, h6, _, h7⟩ | ⟨sub, h6, h7⟩)
      · exact ⟨_, h6, by rw [← h7]⟩
      · have := h4 _ h6
        simp only at this
        rw [this] at h7
        simp at h7
  · rw [if_pos (by simp)]
    simp only [List.insertionSort_cons, List.insertionSort_nil, List.orderedInsert_nil, List.lookup_cons, beq_self_eq_true]
    refine ⟨⟨_, rfl⟩, ?_⟩
    simp only [List.mem_singleton, Prod.mk.injEq, true_and, exists_eq_left]
    constructor
    · intro h
      exact .inr h
    · rintro (⟨s, ⟨_, rfl⟩, h6, _⟩ | h)
      · exact absurd h6 h5
      · exact h

theorem ecoKept_mem (start t : Int) (cells : List (List (Option Rat))) (vals : List (Option Rat)) :
    (t, vals) ∈ ecoKept start cells ↔
      ∃ i : Nat, cells[i]? = some vals ∧ t = start + (i : Int) * 1000000000 ∧ vals.headD none ≠ some (-1) := by
  unfold ecoKept
  rw [List.mem_filter, List.mem_map]
  simp only [decide_eq_true_eq]
  constructor
  · rintro ⟨⟨⟨c, i⟩, h1, h2⟩, h3⟩
    rw [Prod.mk.injEq] at h2
    obtain ⟨rfl, rfl⟩ := h2
    exact ⟨i, List.mem_zipIdx_iff_getElem?.1 h1, rfl, h3⟩
  · rintro ⟨i, h1, rfl, h3⟩
    exact ⟨⟨(vals, i), List.mem_zipIdx_iff_getElem?.2 h1, rfl⟩, h3⟩

theorem isStem_iff {name : Str} (h : 4 ≤ name.length) (stem : Str) : IsStem stem name ↔ stem = smStem name := by
  unfold IsStem smStem
  constructor
  · rintro ⟨ext, h1, rfl⟩
    rw [List.length_append, h1, Nat.add_sub_cancel]
    simp
  · rintro rfl
    exact ⟨name.drop (name.length - 4), by rw [List.length_drop]; omega, (List.take_append_drop _ _).symm⟩

theorem csv_length {name : Str} (h : ".csv".toList <:+: name) : 4 ≤ name.length := h.length_le

theorem smCells_source (cfg : EcoConfig) {p : Nat} (hp : p = 1 ∨ p = 2 ∨ p = 3) (r : EcoRow) :
    ∃ pw cur volt ang, (ecoSmSource p).map r = [pw, cur, volt, ang] ∧
      ecoSmCells cfg p r = [pw, cur, volt, ang, pw.bind (fun a => ang.map (fun b => cfg.reactive a b))] := by
  have key : ∀ a b : Option Rat, ecoReactive cfg a b = a.bind (fun a => b.map (fun b => cfg.reactive a b)) := by
    intro a b
    cases a <;> cases b <;> rfl
  unfold ecoSmCells
  rcases hp with rfl | rfl | rfl
  · exact ⟨r 2, r 6, r 9, r 14, rfl, by rw [key]⟩
  · exact ⟨r 3, r 7, r 10, r 15, rfl, by rw [key]⟩
  · exact ⟨r 4, r 8, r 11, r 16, rfl, by rw [key]⟩

theorem smEv_mem {n : Nat} {cfg : EcoConfig} {f : Str × List EcoRow} (hf : SmOk n cfg f) (hc : ".csv".toList <:+: f.1) (b : Int) {p : Nat}
    (hp : p = 1 ∨ p = 2 ∨ p = 3) (t : Int) (vals : List (Option Rat)) :
    (t, vals) ∈ (smEv cfg b f p).2.rows ↔ SmReading cfg p f t vals := by
  unfold smEv SmReading
  simp only [isStem_iff (csv_length hc), ecoKept_mem, List.getElem?_map, Option.map_eq_some_iff]
  obtain ⟨start, hs⟩ := Option.isSome_iff_exists.1 hf.1
  simp only [hs, Option.getD_some]
  constructor
  · rintro ⟨i, ⟨r, h1, rfl⟩, h2, h3⟩
    obtain ⟨pw, cur, volt, ang, k1, k2⟩ := smCells_source cfg hp r
    refine ⟨_, start, i, r, pw, cur, volt, ang, rfl, hs, h1, h2, k1, ?_, k2⟩
    rw [k2] at h3
    exact h3
  · rintro ⟨_, start', i, r, pw, cur, volt, ang, rfl, hs', h1, h2, k1, h3, rfl⟩
    rw [hs] at hs'
    cases hs'
    obtain ⟨pw', cur', volt', ang', j1, j2⟩ := smCells_source cfg hp r
    rw [j1] at k1
    simp only [List.cons.injEq, and_true] at k1
    obtain ⟨rfl, rfl, rfl, rfl⟩ := k1
    exact ⟨i, ⟨r, h1, j2⟩, h2, h3⟩

theorem plugEv_mem {n : Nat} {cfg : EcoConfig} {f : Str × List EcoRow} (hf : PlugOk n cfg f) (hc : ".csv".toList <:+: f.1) (key : Str)
    (t : Int) (vals : List (Option Rat)) : (t, vals) ∈ (plugEv cfg key f).2.rows ↔ PlugReading cfg f t vals := by
  unfold plugEv PlugReading
  simp only [isStem_iff (csv_length hc), ecoKept_mem, List.getElem?_map, Option.map_eq_some_iff]
  obtain ⟨start, hs⟩ := Option.isSome_iff_exists.1 hf.1
  unfold plugStem at hs
  simp only [plugStem, hs, Option.getD_some]
  constructor
  · rintro ⟨i, ⟨r, h1, rfl⟩, h2, h3⟩
    exact ⟨_, start, i, r, rfl, hs, h1, h2, h3, rfl⟩
  · rintro ⟨_, start', i, r, rfl, hs', h1, h2, h3, rfl⟩
    rw [hs] at hs'
    cases hs'
    exact ⟨i, ⟨r, h1, rfl⟩, h2, h3⟩

/-- The events of a conversion that succeeds. -/
theorem ecoEvs_mem {n : Nat} {cfg : EcoConfig} {tree : EcoTree} (hl : PlugLayout tree) (hok : ∀ f ∈ ecoFolders tree, EcoFolderOk n cfg f)
    (e : EcoEv) : e ∈ ecoEvs cfg tree ↔
      (∃ b f p, SmCsv tree b f ∧ 1 ≤ b ∧ SmOk n cfg f ∧ (p = 1 ∨ p = 2 ∨ p = 3) ∧ e = smEv cfg (b : Int) f p) ∨
      ∃ (b : Nat) (i : Int) (d : Str) (files : EcoFiles) (f : Str × List EcoRow), PlugDir tree b d files ∧ pyInt d = some i ∧ f ∈ files ∧
        ".csv".toList <:+: f.1 ∧ 1 ≤ b ∧ 1 ≤ i + 3 ∧ PlugOk n cfg f ∧ e = plugEv cfg (meterKey b (i + 3).toNat) f := by
  unfold ecoEvs
  rw [List.mem_flatMap]
  constructor
  · rintro ⟨⟨name, c⟩, hf, he⟩
    have hF := hok _ hf
    obtain ⟨hft, hntxt⟩ := (ecoFolders_mem tree _).1 hf
    unfold folderEvs at he
    rw [List.mem_flatMap] at he
    obtain ⟨fl, hfl, he⟩ := he
    simp only at he hntxt
    have hkind : ∃ plugs content, ecoKind name = some plugs ∧ c = some content := by
      unfold ecoDirsOf at hfl
      simp only at hfl
      cases hk : ecoKind name with
      | none => rw [hk] at hfl; simp at hfl
      | some pl =>
        cases c with
        | none => rw [hk] at hfl; simp at hfl
        | some content => exact ⟨pl, content, rfl, rfl⟩
    obtain ⟨plugs, content, hk, rfl⟩ := hkind
    unfold EcoFolderOk at hF
    simp only at hF
    have hskip : EcoSkips name ≠ true := by
      intro h
      unfold ecoKind at hk
      rw [if_pos h] at hk
      cases hk
    rcases hF with h | ⟨hb, h | ⟨plugs', content', dirs, h1, h2, h3, h4⟩⟩
    · exact absurd h hskip
    · rw [hk] at h
      cases h
    · rw [hk] at h1
      cases h1
      cases h2
      obtain ⟨bi, hbi⟩ := Option.isSome_iff_exists.1 hb
      rw [hbi] at he h4
      simp only [Option.getD_some] at he h4
      have hdirs : ecoDirsOf (name, some content) = dirs := by
        unfold ecoDirsOf
        simp only [hk, h3]
      have hflok := h4 fl (by rw [← hdirs]; exact hfl)
      unfold EcoDirOk at hflok
      cases plugs with
      | false =>
        left
        rw [hk, if_neg (by simp)] at he
        simp only [Bool.false_eq_true, if_false] at hflok
        unfold smDirEvs at he
        rw [List.mem_flatMap] at he
        obtain ⟨f, hff, he⟩ := he
        rw [List.mem_map] at he
        obtain ⟨p, hp, rfl⟩ := he
        obtain ⟨hb1, hfo⟩ := hflok f hff
        obtain ⟨sub, hsub, rfl⟩ := (ecoDirsOf_sm hk fl).1 hfl
        obtain ⟨g1, g2⟩ := (ecoCsvs_mem _ _).1 hff
        have hbn : ((bi.toNat : Nat) : Int) = bi := Int.toNat_of_nonneg (by omega)
        refine ⟨bi.toNat, f, p, ⟨name, content, sub, hft, (isSmFolder_iff _ _).2 ⟨hntxt, hk, by rw [hbn]; exact hbi⟩, hsub, g1, g2⟩,
          by omega, hfo, by simpa using hp, by rw [hbn]⟩
      | true =>
        right
        rw [hk, if_pos rfl] at he
        simp only [if_true] at hflok
        unfold plugDirEvs at he
        rw [List.mem_map] at he
        obtain ⟨f, hff, rfl⟩ := he
        obtain ⟨i, hi, hb1, hi1, _, hall⟩ := hflok
        obtain ⟨g1, g2⟩ := (ecoCsvs_mem _ _).1 hff
        have hbn : ((bi.toNat : Nat) : Int) = bi := Int.toNat_of_nonneg (by omega)
        have hpf : IsPlugFolder bi.toNat name := (isPlugFolder_iff _ _).2 ⟨hntxt, hk, by rw [hbn]; exact hbi⟩
        refine ⟨bi.toNat, i, fl.1, fl.2, f, ⟨name, content, hft, hpf, ((ecoDirsOf_plug hl hft hpf fl).2).1 hfl⟩, hi, g1, g2,
          by omega, hi1, hall f hff, by rw [hi]; rfl⟩
  · rintro (⟨b, f, p, ⟨name, content, sub, h1, h2, h3, h4, h5⟩, hb, hfo, hp, rfl⟩ |
      ⟨b, i, d, files, f, ⟨name, content, h1, h2, h3⟩, hi, h4, h5, hb, hi1, hfo, rfl⟩)
    · obtain ⟨g1, g2, g3⟩ := (isSmFolder_iff b name).1 h2
      refine ⟨(name, some content), (ecoFolders_mem _ _).2 ⟨h1, g1⟩, ?_⟩
      unfold folderEvs
      rw [List.mem_flatMap]
      refine ⟨(sub.1, sub.2.files), (ecoDirsOf_sm g2 _).2 ⟨sub, h3, rfl⟩, ?_⟩
      simp only [g2, g3, Option.some.injEq, Bool.false_eq_true, if_false, Option.getD_some]
      unfold smDirEvs
      rw [List.mem_flatMap]
      exact ⟨f, (ecoCsvs_mem _ _).2 ⟨h4, h5⟩, List.mem_map.2 ⟨p, by simpa using hp, rfl⟩⟩
    · obtain ⟨g1, g2, g3⟩ := (isPlugFolder_iff b name).1 h2
      refine ⟨(name, some content), (ecoFolders_mem _ _).2 ⟨h1, g1⟩, ?_⟩
      unfold folderEvs
      rw [List.mem_flatMap]
      refine ⟨(d, files), ((ecoDirsOf_plug hl h1 h2 (d, files)).2).2 h3, ?_⟩
      simp only [g2, g3, if_true, Option.getD_some]
      unfold plugDirEvs
      rw [List.mem_map]
      refine ⟨f, (ecoCsvs_mem _ _).2 ⟨h4, h5⟩, ?_⟩
      simp only [hi, Option.getD_some, Int.toNat_natCast]

theorem ecoRows_mem {evs : List EcoEv} {st : RawStore (List (Option Rat))} (h : ecoApply evs (fun _ => none) = (st, none)) (k : Str)
    (cols : List (String × String)) (t : Int) (vals : List (Option Rat)) :
    (∃ tab, st k = some tab ∧ tab.columns = cols ∧ (t, vals) ∈ tab.rows) ↔
      ∃ e ∈ evs, e.1 = k ∧ (t, vals) ∈ e.2.rows ∧ e.2.columns = cols := by
  obtain ⟨_, h2⟩ := ecoApply_rows h (by simp)
  obtain ⟨a1, _, a3⟩ := h2 k
  have hempty : ecoRowsAt (fun _ => none) k = [] := rfl
  rw [hempty, List.nil_append] at a1
  constructor
  · rintro ⟨tab, h3, h4, h5⟩
    have : (t, vals) ∈ ecoRowsAt st k := by
      unfold ecoRowsAt
      rw [h3]
      exact h5
    rw [a1, List.mem_flatMap] at this
    obtain ⟨e, he, hm⟩ := this
    by_cases hk : e.1 = k
    · rw [if_pos hk] at hm
      obtain ⟨t', ht', hc⟩ := a3 e he hk (List.ne_nil_of_mem hm)
      rw [h3] at ht'
      cases ht'
      exact ⟨e, he, hk, hm, by rw [← hc, h4]⟩
    · rw [if_neg hk] at hm
      simp at hm
  · rintro ⟨e, he, hk, hm, hc⟩
    obtain ⟨t', ht', hc'⟩ := a3 e he hk (List.ne_nil_of_mem hm)
    refine ⟨t', ht', hc'.trans hc, ?_⟩
    have : (t, vals) ∈ ecoRowsAt st k := by
      rw [a1, List.mem_flatMap]
      exact ⟨e, he, by rw [if_pos hk]; exact hm⟩
    unfold ecoRowsAt at this
    rw [ht'] at this
    exact this

/-- The number of a plug is positive. -/
def PlugsPositive (tree : EcoTree) : Prop := ∀ b d files i, PlugDir tree b d files → pyInt d = some i → 1 ≤ i

/-- C103. When the conversion succeeds, meter 1, 2 or 3 of a building has exactly the readings of that phase in the files of the smart meters
of the building: for every second of every file the power, current, voltage, phase angle and reactive power at that second, unless the
power is -1. Missing: a folder with fewer than three plugs in it (see `C103_few_plugs_counterexample`). -/
theorem C103_phases_partial {n : Nat} {cfg : EcoConfig} {tree : EcoTree} (hl : PlugLayout tree) (hpos : PlugsPositive tree)
    {st : RawStore (List (Option Rat))} (h : ecoConvert n cfg tree = (st, none)) (b p : Nat) (hb : 1 ≤ b)
    (hp : p = 1 ∨ p = 2 ∨ p = 3) (cols : List (String × String)) (t : Int) (vals : List (Option Rat)) :
    EcoHasRow st b p cols t vals ↔
      cols = [("power", "active"), ("current", ""), ("voltage", ""), ("phase_angle", ""), ("power", "reactive")] ∧
      ∃ f, SmCsv tree b f ∧ SmReading cfg p f t vals := by
  obtain ⟨hok, hap, _, _⟩ := (ecoConvert_iff n cfg tree st).1 h
  unfold EcoHasRow
  rw [ecoRows_mem hap]
  constructor
  · rintro ⟨e, he, hk, hm, hc⟩
    rcases (ecoEvs_mem hl hok e).1 he with ⟨b', f, p', h1, h2, h3, h4, rfl⟩ | ⟨b', i, d, files, f, h1, h2, h3, h4, h5, h6, h7, rfl⟩
    · unfold smEv at hk hc
      simp only [Int.toNat_natCast] at hk hc
      obtain ⟨rfl, rfl⟩ := meterKey_inj h2 (by omega) hb (by omega) hk
      exact ⟨hc.symm, f, h1, (smEv_mem h3 (by obtain ⟨_, _, _, _, _, _, _, h⟩ := h1; exact h) _ hp t vals).1 hm⟩
    · exfalso
      unfold plugEv at hk
      simp only at hk
      have := (meterKey_inj h5 (by omega) hb (by omega) hk).2
      have := hpos b' d files i h1 h2
      omega
  · rintro ⟨rfl, f, h1, h2⟩
    have hcsv : ".csv".toList <:+: f.1 := by obtain ⟨_, _, _, _, _, _, _, h⟩ := h1; exact h
    have hgood : SmOk n cfg f := by
      obtain ⟨name, content, sub, g1, g2, g3, g4, g5⟩ := h1
      obtain ⟨k1, k2, k3⟩ := (isSmFolder_iff b name).1 g2
      have hF := hok _ ((ecoFolders_mem _ _).2 ⟨g1, k1⟩)
      unfold EcoFolderOk at hF
      simp only at hF
      rcases hF with hs | ⟨_, hn | ⟨plugs, content', dirs, j1, j2, j3, j4⟩⟩
      · unfold ecoKind at k2
        rw [if_pos hs] at k2
        cases k2
      · rw [k2] at hn
        cases hn
      · rw [k2] at j1
        cases j1
        cases j2
        have hdirs : ecoDirsOf (name, some content) = dirs := by
          unfold ecoDirsOf
          simp only [k2, j3]
        have := j4 (sub.1, sub.2.files) (by rw [← hdirs]; exact (ecoDirsOf_sm k2 _).2 ⟨sub, g3, rfl⟩)
        unfold EcoDirOk at this
        simp only [Bool.false_eq_true, if_false] at this
        exact (this f ((ecoCsvs_mem _ _).2 ⟨g4, g5⟩)).2
    refine ⟨smEv cfg (b : Int) f p, (ecoEvs_mem hl hok _).2 (.inl ⟨b, f, p, h1, hb, hgood, hp, rfl⟩), ?_, ?_, rfl⟩
    · unfold smEv
      simp only [Int.toNat_natCast]
    · exact (smEv_mem hgood hcsv _ hp t vals).2 h2

theorem plugDir_ok {n : Nat} {cfg : EcoConfig} {tree : EcoTree} (hl : PlugLayout tree) (hok : ∀ f ∈ ecoFolders tree, EcoFolderOk n cfg f)
    {b : Nat} {d : Str} {files : EcoFiles} (h : PlugDir tree b d files) : EcoDirOk n cfg (b : Int) true (d, files) := by
  obtain ⟨name, content, h1, h2, h3⟩ := h
  obtain ⟨k1, k2, k3⟩ := (isPlugFolder_iff b name).1 h2
  have hF := hok _ ((ecoFolders_mem _ _).2 ⟨h1, k1⟩)
  unfold EcoFolderOk at hF
  simp only at hF
  rcases hF with hs | ⟨_, hn | ⟨plugs, content', dirs, j1, j2, j3, j4⟩⟩
  · unfold ecoKind at k2
    rw [if_pos hs] at k2
    cases k2
  · rw [k2] at hn
    cases hn
  · rw [k2] at j1
    cases j1
    cases j2
    have hdirs : ecoDirsOf (name, some content) = dirs := by
      unfold ecoDirsOf
      simp only [k2, j3]
    have := j4 (d, files) (by rw [← hdirs]; exact ((ecoDirsOf_plug hl h1 h2 _).2).2 h3)
    rw [k3] at this
    exact this

/-- C103. When the conversion succeeds, meter `i + 3` of a building has exactly the readings in the files of plug `i` of the building: for
every second of every file the power at that second, unless it is -1. Missing: a folder with fewer than three plugs in it (see
`C103_few_plugs_counterexample`). -/
theorem C103_plugs_partial {n : Nat} {cfg : EcoConfig} {tree : EcoTree} (hl : PlugLayout tree)
    {st : RawStore (List (Option Rat))} (h : ecoConvert n cfg tree = (st, none)) (b i : Nat) (hb : 1 ≤ b) (hi : 1 ≤ i)
    (cols : List (String × String)) (t : Int) (vals : List (Option Rat)) :
    EcoHasRow st b (i + 3) cols t vals ↔ cols = [("power", "active")] ∧ ∃ f, PlugCsv tree b i f ∧ PlugReading cfg f t vals := by
  obtain ⟨hok, hap, _, _⟩ := (ecoConvert_iff n cfg tree st).1 h
  unfold EcoHasRow
  rw [ecoRows_mem hap]
  constructor
  · rintro ⟨e, he, hk, hm, hc⟩
    rcases (ecoEvs_mem hl hok e).1 he with ⟨b', f, p', h1, h2, h3, h4, rfl⟩ | ⟨b', j, d, files, f, h1, h2, h3, h4, h5, h6, h7, rfl⟩
    · exfalso
      unfold smEv at hk
      simp only [Int.toNat_natCast] at hk
      have := (meterKey_inj h2 (by omega) hb (by omega) hk).2
      omega
    · have hk' := hk
      unfold plugEv at hk' hc
      simp only at hk' hc
      obtain ⟨rfl, hj⟩ := meterKey_inj h5 (by omega) hb (by omega) hk'
      have hj' : j = (i : Int) := by omega
      subst hj'
      exact ⟨hc.symm, f, ⟨d, files, h1, h2, h3, h4⟩, (plugEv_mem h7 h4 _ t vals).1 hm⟩
  · rintro ⟨rfl, f, ⟨d, files, h1, h2, h3, h4⟩, h5⟩
    have hgood := plugDir_ok hl hok h1
    unfold EcoDirOk at hgood
    simp only [if_true] at hgood
    obtain ⟨_, _, _, _, _, hall⟩ := hgood
    have hfo := hall f ((ecoCsvs_mem _ _).2 ⟨h3, h4⟩)
    refine ⟨plugEv cfg (meterKey b ((i : Int) + 3).toNat) f, (ecoEvs_mem hl hok _).2 (.inr ⟨b, (i : Int), d, files, f, h1, h2, h3, h4, hb,
      by omega, hfo, rfl⟩), ?_, ?_, rfl⟩
    · unfold plugEv
      simp only
      have : ((i : Int) + 3).toNat = i + 3 := by omega
      rw [this]
    · exact (plugEv_mem hfo h4 _ t vals).2 h5

/-- C103. The store has no other tables and no empty ones: every table belongs to a phase of a smart meter or to a plug on the disk. -/
theorem C103_only_partial {n : Nat} {cfg : EcoConfig} {tree : EcoTree} (hl : PlugLayout tree) (hpos : PlugsPositive tree)
    {st : RawStore (List (Option Rat))} (h : ecoConvert n cfg tree = (st, none)) (k : Str) (tab : RawTable (List (Option Rat)))
    (hk : st k = some tab) :
    tab.rows ≠ [] ∧ ∃ b m, 1 ≤ b ∧ k = meterKey b m ∧
      ((1 ≤ m ∧ m ≤ 3 ∧ ∃ f, SmCsv tree b f) ∨ ∃ i f, 1 ≤ i ∧ m = i + 3 ∧ PlugCsv tree b i f) := by
  obtain ⟨hok, hap, _, _⟩ := (ecoConvert_iff n cfg tree st).1 h
  have hne := (ecoApply_rows hap (by simp)).1 k tab hk
  refine ⟨hne, ?_⟩
  obtain ⟨⟨t, vals⟩, hr⟩ := List.exists_mem_of_ne_nil _ hne
  obtain ⟨e, he, hek, _, _⟩ := (ecoRows_mem hap k tab.columns t vals).1 ⟨tab, hk, rfl, hr⟩
  rcases (ecoEvs_mem hl hok e).1 he with ⟨b, f, p, h1, h2, h3, h4, rfl⟩ | ⟨b, j, d, files, f, h1, h2, h3, h4, h5, h6, h7, rfl⟩
  · refine ⟨b, p, h2, ?_, .inl ⟨by omega, by omega, f, h1⟩⟩
    rw [← hek]
    unfold smEv
    simp only [Int.toNat_natCast]
  · have hj := hpos b d files j h1 h2
    have hjn : ((j.toNat : Nat) : Int) = j := Int.toNat_of_nonneg (by omega)
    refine ⟨b, (j + 3).toNat, h5, by rw [← hek]; rfl, .inr ⟨j.toNat, f, by omega, by omega, d, files, h1, by rw [hjn]; exact h2, h3, h4⟩⟩

/-- C103. A conversion that succeeds has found a file of a smart meter and a file of a plug. -/
theorem C103_found_partial {n : Nat} {cfg : EcoConfig} {tree : EcoTree} (hl : PlugLayout tree)
    {st : RawStore (List (Option Rat))} (h : ecoConvert n cfg tree = (st, none)) :
    (∃ b f, 1 ≤ b ∧ SmCsv tree b f) ∧ ∃ b d files f, 1 ≤ b ∧ PlugDir tree b d files ∧ f ∈ files ∧ ".csv".toList <:+: f.1 := by
  obtain ⟨hok, hap, ⟨g, g1, g2, fl, g3, g4⟩, ⟨p, p1, p2, fl', p3, p4⟩⟩ := (ecoConvert_iff n cfg tree st).1 h
  constructor
  · obtain ⟨f, hf⟩ := List.exists_mem_of_ne_nil _ g4
    have : smEv cfg ((pyInt (g.1.take 2)).getD 0) f 1 ∈ ecoEvs cfg tree := by
      unfold ecoEvs
      refine List.mem_flatMap.2 ⟨g, g1, ?_⟩
      unfold folderEvs
      refine List.mem_flatMap.2 ⟨fl, g3, ?_⟩
      rw [g2, if_neg (by simp)]
      unfold smDirEvs
      exact List.mem_flatMap.2 ⟨f, hf, by simp⟩
    rcases (ecoEvs_mem hl hok _).1 this with ⟨b, f', _, h1, h2, _⟩ | ⟨_, _, _, _, _, _, _, _, _, _, _, _, he⟩
    · exact ⟨b, f', h2, h1⟩
    · have := congrArg (fun e : EcoEv => e.2.columns.length) he
      simp [smEv, plugEv, ecoSmColumns] at this
  · obtain ⟨f, hf⟩ := List.exists_mem_of_ne_nil _ p4
    have : ∃ key, plugEv cfg key f ∈ ecoEvs cfg tree := by
      refine ⟨meterKey ((pyInt (p.1.take 2)).getD 0).toNat (((pyInt fl'.1).getD 0) + 3).toNat, ?_⟩
      unfold ecoEvs
      refine List.mem_flatMap.2 ⟨p, p1, ?_⟩
      unfold folderEvs
      refine List.mem_flatMap.2 ⟨fl', p3, ?_⟩
      rw [p2, if_pos rfl]
      unfold plugDirEvs
      exact List.mem_map.2 ⟨f, hf, rfl⟩
    obtain ⟨key, hkey⟩ := this
    rcases (ecoEvs_mem hl hok _).1 hkey with ⟨_, _, _, _, _, _, _, he⟩ | ⟨b, i, d, files, f', h1, h2, h3, h4, h5, _⟩
    · have := congrArg (fun e : EcoEv => e.2.columns.length) he
      simp [smEv, plugEv, ecoSmColumns] at this
    · exact ⟨b, d, files, f', h5, h1, h3, h4⟩

/-- A dataset without mistakes: every name the converter looks at begins with the number of a building, folders of readings are directories,
plugs have a positive number and at least one file, and every file has a readable day and a row for every second. -/
structure EcoTidy (n : Nat) (cfg : EcoConfig) (tree : EcoTree) : Prop where
  numbered : ∀ e ∈ tree, EcoVisible e.1 → ∃ b : Nat, 1 ≤ b ∧ pyInt (e.1.take 2) = some (b : Int)
  folders : ∀ e ∈ tree, ∀ b, (IsSmFolder b e.1 ∨ IsPlugFolder b e.1) → e.2.isSome = true
  smFiles : ∀ b f, SmCsv tree b f → f.2.length = n ∧ ∃ stem, IsStem stem f.1 ∧ (cfg.day stem).isSome = true
  plugDirs : ∀ b d files, PlugDir tree b d files → ∃ i : Nat, 1 ≤ i ∧ pyInt d = some (i : Int) ∧ ∃ f, PlugCsv tree b i f ∧ f ∈ files
  plugFiles : ∀ b i f, PlugCsv tree b i f → f.2.length = n ∧
    ∃ stem, IsStem stem f.1 ∧ (cfg.day (stem.map (fun c => if c = '.' then ':' else c))).isSome = true

/-- C103. A dataset without mistakes is converted, if it has a file of a smart meter and a plug. -/
theorem C103_succeeds_partial {n : Nat} {cfg : EcoConfig} {tree : EcoTree} (hl : PlugLayout tree) (ht : EcoTidy n cfg tree)
    (hsm : ∃ b f, SmCsv tree b f) (hpl : ∃ b d files, PlugDir tree b d files) :
    ∃ st, ecoConvert n cfg tree = (st, none) := by
  have hplugok : ∀ b d files, PlugDir tree b d files → ∃ i : Nat, 1 ≤ i ∧ pyInt d = some (i : Int) ∧ ecoCsvs files ≠ [] ∧
      ∀ f ∈ ecoCsvs files, PlugOk n cfg f := by
    intro b d files h
    obtain ⟨i, h1, h2, f, ⟨_, _, _, _, _, hc⟩, hf⟩ := ht.plugDirs b d files h
    refine ⟨i, h1, h2, List.ne_nil_of_mem ((ecoCsvs_mem files f).2 ⟨hf, hc⟩), ?_⟩
    intro g hg
    obtain ⟨g1, g2⟩ := (ecoCsvs_mem _ _).1 hg
    obtain ⟨j1, stem, j2, j3⟩ := ht.plugFiles b i g ⟨d, files, h, h2, g1, g2⟩
    rw [isStem_iff (csv_length g2)] at j2
    subst j2
    exact ⟨j3, j1⟩
  have hok : ∀ f ∈ ecoFolders tree, EcoFolderOk n cfg f := by
    rintro ⟨name, c⟩ hf
    obtain ⟨hm, htxt⟩ := (ecoFolders_mem _ _).1 hf
    simp only at htxt
    unfold EcoFolderOk
    simp only
    by_cases hs : EcoSkips name = true
    · exact .inl hs
    · right
      have hvis : EcoVisible name := by
        have := mt (ecoSkips_iff name).2 hs
        rw [not_or] at this
        exact ⟨htxt, this.1, this.2⟩
      obtain ⟨b, hb, hpb⟩ := ht.numbered _ hm hvis
      simp only at hpb
      rw [hpb]
      refine ⟨rfl, ?_⟩
      cases hk : ecoKind name with
      | none => exact .inl rfl
      | some plugs =>
        right
        simp only [Option.getD_some]
        cases plugs with
        | false =>
          have hsmf : IsSmFolder b name := (isSmFolder_iff _ _).2 ⟨htxt, hk, hpb⟩
          obtain ⟨content, rfl⟩ := Option.isSome_iff_exists.1 (ht.folders _ hm b (.inl hsmf))
          refine ⟨false, content, ecoDirsOf (name, some content), rfl, rfl, ?_, ?_⟩
          · unfold ecoDirsOf ecoDirList
            simp only [hk, Bool.false_eq_true, false_and, if_false]
          · intro fl hfl
            obtain ⟨sub, hsub, rfl⟩ := (ecoDirsOf_sm hk fl).1 hfl
            unfold EcoDirOk
            simp only [Bool.false_eq_true, if_false]
            intro f hff
            obtain ⟨g1, g2⟩ := (ecoCsvs_mem _ _).1 hff
            obtain ⟨j1, stem, j2, j3⟩ := ht.smFiles b f ⟨name, content, sub, hm, hsmf, hsub, g1, g2⟩
            rw [isStem_iff (csv_length g2)] at j2
            subst j2
            exact ⟨by omega, j3, j1⟩
        | true =>
          have hpf : IsPlugFolder b name := (isPlugFolder_iff _ _).2 ⟨htxt, hk, hpb⟩
          obtain ⟨content, rfl⟩ := Option.isSome_iff_exists.1 (ht.folders _ hm b (.inr hpf))
          obtain ⟨dirs, hd⟩ := (ecoDirsOf_plug hl hm hpf ([], [])).1
          have hdirs : ecoDirsOf (name, some content) = dirs := by
            unfold ecoDirsOf
            simp only [hk, hd]
          refine ⟨true, content, dirs, rfl, rfl, hd, ?_⟩
          intro fl hfl
          rw [← hdirs] at hfl
          obtain ⟨i, i1, i2, i3, i4⟩ := hplugok b fl.1 fl.2 ⟨name, content, hm, hpf, ((ecoDirsOf_plug hl hm hpf fl).2).1 hfl⟩
          unfold EcoDirOk
          simp only [if_true]
          exact ⟨i, i2, by omega, by omega, i3, i4⟩
  have hpos : PlugsPositive tree := by
    intro b d files i h hi
    obtain ⟨j, j1, j2, _⟩ := ht.plugDirs b d files h
    rw [j2] at hi
    cases hi
    omega
  obtain ⟨st, hst⟩ := ecoApply_total (ecoEvs cfg tree) (fun _ => none) (by
    intro e he e' he' hee
    rcases (ecoEvs_mem hl hok e).1 he with ⟨b, f, p, h1, h2, h3, h4, rfl⟩ | ⟨b, j, d, files, f, h1, h2, h3, h4, h5, h6, h7, rfl⟩
    · rcases (ecoEvs_mem hl hok e').1 he' with ⟨b', f', p', k1, k2, k3, k4, rfl⟩ | ⟨b', j', d', files', f', k1, k2, k3, k4, k5, k6, k7, rfl⟩
      · rfl
      · exfalso
        unfold smEv plugEv at hee
        simp only [Int.toNat_natCast] at hee
        have := (meterKey_inj h2 (by omega) k5 (by omega) hee).2
        have := hpos _ _ _ _ k1 k2
        omega
    · rcases (ecoEvs_mem hl hok e').1 he' with ⟨b', f', p', k1, k2, k3, k4, rfl⟩ | ⟨b', j', d', files', f', k1, k2, k3, k4, k5, k6, k7, rfl⟩
      · exfalso
        unfold smEv plugEv at hee
        simp only [Int.toNat_natCast] at hee
        have := (meterKey_inj h5 (by omega) k2 (by omega) hee).2
        have := hpos _ _ _ _ h1 h2
        omega
      · rfl) (by simp)
  refine ⟨st, (ecoConvert_iff n cfg tree st).2 ⟨hok, hst, ?_, ?_⟩⟩
  · obtain ⟨b, f, name, content, sub, h1, h2, h3, h4, h5⟩ := hsm
    obtain ⟨g1, g2, g3⟩ := (isSmFolder_iff b name).1 h2
    exact ⟨(name, some content), (ecoFolders_mem _ _).2 ⟨h1, g1⟩, g2, (sub.1, sub.2.files), (ecoDirsOf_sm g2 _).2 ⟨sub, h3, rfl⟩,
      List.ne_nil_of_mem ((ecoCsvs_mem _ _).2 ⟨h4, h5⟩)⟩
  · obtain ⟨b, d, files, hpd⟩ := hpl
    obtain ⟨_, _, _, hne, _⟩ := hplugok b d files hpd
    obtain ⟨name, content, h1, h2, h3⟩ := hpd
    obtain ⟨g1, g2, g3⟩ := (isPlugFolder_iff b name).1 h2
    exact ⟨(name, some content), (ecoFolders_mem _ _).2 ⟨h1, g1⟩, g2, (d, files), ((ecoDirsOf_plug hl h1 h2 _).2).2 h3, hne⟩

/-! ### The order of the rows -/

theorem flatMap_only {α β : Type} {l : List α} {f : α → List β} {a : α} (hn : l.Nodup) (ha : a ∈ l) (h : ∀ x ∈ l, x ≠ a → f x = []) :
    l.flatMap f = f a := by
  induction l with
  | nil => simp at ha
  | cons x l ih =>
    rw [List.nodup_cons] at hn
    rw [List.flatMap_cons]
    rcases List.mem_cons.1 ha with rfl | ha'
    · have : l.flatMap f = [] := by
        rw [List.flatMap_eq_nil_iff]
        intro y hy
        exact h y (List.mem_cons_of_mem _ hy) (fun he => hn.1 (he ▸ hy))
      rw [this, List.append_nil]
    · rw [h x (by simp) (fun he => hn.1 (he ▸ ha')), List.nil_append]
      exact ih hn.2 ha' (fun y hy => h y (List.mem_cons_of_mem _ hy))

theorem eq_of_fst_nodup {α β : Type} {l : List (α × β)} (hn : (l.map Prod.fst).Nodup) {x y : α × β} (hx : x ∈ l) (hy : y ∈ l)
    (h : x.1 = y.1) : x = y := List.inj_on_of_nodup_map hn hx hy h

/-- No directory has two entries with the same name. -/
structure EcoDistinct (tree : EcoTree) : Prop where
  top : (tree.map Prod.fst).Nodup
  folders : ∀ name content, (name, some content) ∈ tree → (content.map Prod.fst).Nodup
  nested : ∀ name content d sub, (name, some content) ∈ tree → (d, sub) ∈ content → (sub.subs.map Prod.fst).Nodup

/-- The days of the files follow one another in the order of the names, `n` seconds apart at least. -/
def DaysFollow (n : Nat) (day : Str → Option Int) (files : EcoFiles) : Prop :=
  ∀ f ∈ files, ∀ g ∈ files, ".csv".toList <:+: f.1 → ".csv".toList <:+: g.1 → f.1 ≠ g.1 → strLe f.1 g.1 = true →
    ∀ a b sf sg, IsStem a f.1 → IsStem b g.1 → day a = some sf → day b = some sg → sf + (n : Int) * 1000000000 ≤ sg

theorem ecoKept_sorted (start : Int) (cells : List (List (Option Rat))) :
    ((ecoKept start cells).map Prod.fst).Pairwise (· < ·) := by
  unfold ecoKept
  rw [List.pairwise_map]
  apply List.Pairwise.filter
  rw [List.pairwise_map]
  have : ∀ (l : List (List (Option Rat))) (k : Nat), (l.zipIdx k).Pairwise (fun a b => a.2 < b.2) := by
    intro l
    induction l with
    | nil => intro k; simp
    | cons c l ih =>
      intro k
      rw [List.zipIdx_cons, List.pairwise_cons]
      refine ⟨?_, ih (k + 1)⟩
      intro x hx
      have := (List.mem_zipIdx hx).1
      simp only
      omega
  refine (this cells 0).imp ?_
  intro a b hab
  simp only
  omega

theorem ecoCsvs_sorted (files : EcoFiles) : (ecoCsvs files).Pairwise (fun a b => strLe a.1 b.1 = true) := by
  have : Std.Total (fun a b : Str × List EcoRow => strLe a.1 b.1 = true) := ⟨fun a b => strLe_total a.1 b.1⟩
  have : IsTrans (Str × List EcoRow) (fun a b => strLe a.1 b.1 = true) := ⟨fun _ _ _ => strLe_trans⟩
  exact List.pairwise_insertionSort (fun a b : Str × List EcoRow => strLe a.1 b.1 = true) _

theorem ecoCsvs_names (files : EcoFiles) (hn : (files.map Prod.fst).Nodup) : ((ecoCsvs files).map Prod.fst).Nodup := by
  unfold ecoCsvs
  rw [((List.perm_insertionSort _ _).map Prod.fst).nodup_iff]
  exact (List.filter_sublist.map Prod.fst).nodup hn

theorem ecoDays_sorted {n : Nat} {files : EcoFiles} (hn : (files.map Prod.fst).Nodup) (day : Str → Option Int)
    (hdays : DaysFollow n day files) (cells : EcoRow → List (Option Rat))
    (hok : ∀ f ∈ ecoCsvs files, (day (smStem f.1)).isSome = true ∧ f.2.length = n) :
    (((ecoCsvs files).flatMap (fun f => ecoKept ((day (smStem f.1)).getD 0) (f.2.map cells))).map Prod.fst).Pairwise (· < ·) := by
  rw [List.map_flatMap, List.pairwise_flatMap]
  refine ⟨fun f _ => ecoKept_sorted _ _, ?_⟩
  have hlt : (ecoCsvs files).Pairwise (fun a b => strLe a.1 b.1 = true ∧ a.1 ≠ b.1) := by
    have h2 := ecoCsvs_names files hn
    rw [List.Nodup, List.pairwise_map] at h2
    exact (ecoCsvs_sorted files).and h2
  refine List.Pairwise.imp_of_mem ?_ hlt
  rintro f g hf hg ⟨h1, h2⟩ x hx y hy
  obtain ⟨⟨x1, x2⟩, hx', rfl⟩ := List.mem_map.1 hx
  obtain ⟨⟨y1, y2⟩, hy', rfl⟩ := List.mem_map.1 hy
  obtain ⟨i, hi, rfl, _⟩ := (ecoKept_mem _ _ _ _).1 hx'
  obtain ⟨j, hj, rfl, _⟩ := (ecoKept_mem _ _ _ _).1 hy'
  obtain ⟨f1, f2⟩ := (ecoCsvs_mem _ _).1 hf
  obtain ⟨g1, g2⟩ := (ecoCsvs_mem _ _).1 hg
  obtain ⟨hfo, hfl⟩ := hok f hf
  obtain ⟨sf, hsf⟩ := Option.isSome_iff_exists.1 hfo
  obtain ⟨sg, hsg⟩ := Option.isSome_iff_exists.1 (hok g hg).1
  have := hdays f f1 g g1 f2 g2 h2 h1 _ _ sf sg ((isStem_iff (csv_length f2) _).2 rfl) ((isStem_iff (csv_length g2) _).2 rfl) hsf hsg
  have hil : i < n := by
    rw [← hfl]
    by_contra hc
    rw [List.getElem?_eq_none (by rw [List.length_map]; omega)] at hi
    cases hi
  simp only [hsf, hsg, Option.getD_some]
  omega

theorem folderEvs_key {n : Nat} {cfg : EcoConfig} {tree : EcoTree} {f : Str × Option (List (Str × EcoSub))} (hf : f ∈ ecoFolders tree)
    (hF : EcoFolderOk n cfg f) {e : EcoEv} (he : e ∈ folderEvs cfg f) {b m : Nat} (hb : 1 ≤ b) (hm : 1 ≤ m) (hk : e.1 = meterKey b m) :
    (IsSmFolder b f.1 ∧ m ≤ 3) ∨ (IsPlugFolder b f.1 ∧ ∃ fl ∈ ecoDirsOf f, ∃ i, pyInt fl.1 = some i ∧ (i + 3).toNat = m) := by
  obtain ⟨name, c⟩ := f
  obtain ⟨hft, hntxt⟩ := (ecoFolders_mem tree _).1 hf
  unfold folderEvs at he
  rw [List.mem_flatMap] at he
  obtain ⟨fl, hfl, he⟩ := he
  simp only at he hntxt
  unfold EcoFolderOk at hF
  simp only at hF
  have hkind : ∃ plugs content, ecoKind name = some plugs ∧ c = some content := by
    unfold ecoDirsOf at hfl
    simp only at hfl
    cases hk : ecoKind name with
    | none => rw [hk] at hfl; simp at hfl
    | some pl =>
      cases c with
      | none => rw [hk] at hfl; simp at hfl
      | some content => exact ⟨pl, content, rfl, rfl⟩
  obtain ⟨plugs, content, hkd, rfl⟩ := hkind
  have hskip : EcoSkips name ≠ true := by
    intro h
    unfold ecoKind at hkd
    rw [if_pos h] at hkd
    cases hkd
  rcases hF with h | ⟨hbs, h | ⟨plugs', content', dirs, h1, h2, h3, h4⟩⟩
  · exact absurd h hskip
  · rw [hkd] at h
    cases h
  · rw [hkd] at h1
    cases h1
    cases h2
    obtain ⟨bi, hbi⟩ := Option.isSome_iff_exists.1 hbs
    rw [hbi] at he h4
    simp only [Option.getD_some] at he h4
    have hdirs : ecoDirsOf (name, some content) = dirs := by
      unfold ecoDirsOf
      simp only [hkd, h3]
    have hflok := h4 fl (by rw [← hdirs]; exact hfl)
    unfold EcoDirOk at hflok
    cases plugs with
    | false =>
      left
      rw [hkd, if_neg (by simp)] at he
      simp only [Bool.false_eq_true, if_false] at hflok
      unfold smDirEvs at he
      rw [List.mem_flatMap] at he
      obtain ⟨g, hg, he⟩ := he
      rw [List.mem_map] at he
      obtain ⟨p, hp, rfl⟩ := he
      obtain ⟨hb1, _⟩ := hflok g hg
      unfold smEv at hk
      simp only at hk
      have hp' : p = 1 ∨ p = 2 ∨ p = 3 := by simpa using hp
      obtain ⟨q1, q2⟩ := meterKey_inj (by omega) (by omega) hb hm hk
      refine ⟨(isSmFolder_iff _ _).2 ⟨hntxt, hkd, ?_⟩, by omega⟩
      simp only
      rw [hbi, ← q1, Int.toNat_of_nonneg (by omega)]
    | true =>
      right
      rw [hkd, if_pos rfl] at he
      simp only [if_true] at hflok
      unfold plugDirEvs at he
      rw [List.mem_map] at he
      obtain ⟨g, hg, rfl⟩ := he
      obtain ⟨i, hi, hb1, hi1, _, _⟩ := hflok
      unfold plugEv at hk
      simp only [hi, Option.getD_some] at hk
      obtain ⟨q1, q2⟩ := meterKey_inj (by omega) (by omega) hb hm hk
      refine ⟨(isPlugFolder_iff _ _).2 ⟨hntxt, hkd, ?_⟩, fl, hfl, i, hi, q2⟩
      simp only
      rw [hbi, ← q1, Int.toNat_of_nonneg (by omega)]

theorem ecoFolders_nodup {tree : EcoTree} (h : EcoDistinct tree) : (ecoFolders tree).Nodup := by
  unfold ecoFolders
  rw [(List.perm_insertionSort _ _).nodup_iff]
  exact (h.top.of_map Prod.fst).filter _

theorem flatMap_nil_of {α β : Type} {l : List α} {f : α → List β} (h : ∀ x ∈ l, f x = []) : l.flatMap f = [] :=
  List.flatMap_eq_nil_iff.2 h

/-- C103. If a building has one folder of smart meters with one directory in it, and the names of the files are in the order of the days, the
times in the table of every phase increase. -/
theorem C103_phase_order_partial {n : Nat} {cfg : EcoConfig} {tree : EcoTree} (hl : PlugLayout tree) (hpos : PlugsPositive tree)
    (hd : EcoDistinct tree) {st : RawStore (List (Option Rat))} (h : ecoConvert n cfg tree = (st, none)) (b p : Nat) (hb : 1 ≤ b)
    (hp : p = 1 ∨ p = 2 ∨ p = 3) (name d : Str) (sub : EcoSub) (hm : (name, some [(d, sub)]) ∈ tree) (hsm : IsSmFolder b name)
    (hone : ∀ e ∈ tree, IsSmFolder b e.1 → e.1 = name) (hfn : (sub.files.map Prod.fst).Nodup) (hdays : DaysFollow n cfg.day sub.files)
    (tab : RawTable (List (Option Rat))) (ht : st (meterKey b p) = some tab) : (tab.rows.map Prod.fst).Pairwise (· < ·) := by
  obtain ⟨hok, hap, _, _⟩ := (ecoConvert_iff n cfg tree st).1 h
  obtain ⟨_, h2⟩ := ecoApply_rows hap (by simp)
  obtain ⟨a1, _, _⟩ := h2 (meterKey b p)
  have hempty : ecoRowsAt (fun _ => none) (meterKey b p) = [] := rfl
  rw [hempty, List.nil_append] at a1
  have hrows : ecoRowsAt st (meterKey b p) = tab.rows := by
    unfold ecoRowsAt
    rw [ht]
    rfl
  rw [← hrows, a1]
  obtain ⟨k1, k2, k3⟩ := (isSmFolder_iff b name).1 hsm
  have hmem := (ecoFolders_mem tree (name, some [(d, sub)])).2 ⟨hm, k1⟩
  unfold ecoEvs
  rw [List.flatMap_assoc, flatMap_only (ecoFolders_nodup hd) hmem]
  · have hdirs : ecoDirsOf (name, some [(d, sub)]) = [(d, sub.files)] := by
      unfold ecoDirsOf ecoDirList
      simp [k2]
    have hevs : folderEvs cfg (name, some [(d, sub)]) = smDirEvs cfg (b : Int) (d, sub.files) := by
      unfold folderEvs
      rw [hdirs]
      simp [k2, k3]
    rw [hevs]
    unfold smDirEvs
    rw [List.flatMap_assoc]
    have hsel : ∀ f : Str × List EcoRow, ([1, 2, 3].map (smEv cfg (b : Int) f)).flatMap
        (fun e => if e.1 = meterKey b p then e.2.rows else []) =
        ecoKept ((cfg.day (smStem f.1)).getD 0) (f.2.map (ecoSmCells cfg p)) := by
      intro f
      have hkey : ∀ q, 1 ≤ q → (((smEv cfg (b : Int) f q).1 = meterKey b p) ↔ q = p) := by
        intro q hq
        unfold smEv
        simp only [Int.toNat_natCast]
        constructor
        · intro hh
          exact (meterKey_inj hb hq hb (by omega) hh).2
        · rintro rfl
          rfl
      have hp1 := hkey 1 (by omega)
      have hp2 := hkey 2 (by omega)
      have hp3 := hkey 3 (by omega)
      simp only [List.map_cons, List.map_nil, List.flatMap_cons, List.flatMap_nil, hp1, hp2, hp3]
      rcases hp with rfl | rfl | rfl <;> simp [smEv]
    simp only [hsel]
    refine ecoDays_sorted hfn cfg.day hdays _ ?_
    intro f hf
    have hF := hok _ hmem
    unfold EcoFolderOk at hF
    simp only at hF
    rcases hF with hs | ⟨_, hn | ⟨plugs, content', dirs, j1, j2, j3, j4⟩⟩
    · unfold ecoKind at k2
      rw [if_pos hs] at k2
      cases k2
    · rw [k2] at hn
      cases hn
    · rw [k2] at j1
      cases j1
      cases j2
      have hdirs' : ecoDirsOf (name, some [(d, sub)]) = dirs := by
        unfold ecoDirsOf
        simp only [k2, j3]
      have := j4 (d, sub.files) (by rw [← hdirs', hdirs]; simp)
      unfold EcoDirOk at this
      simp only [Bool.false_eq_true, if_false] at this
      exact (this f hf).2
  · intro x hx hne
    refine flatMap_nil_of ?_
    intro e he
    rw [if_neg]
    intro hk
    obtain ⟨hxt, _⟩ := (ecoFolders_mem tree x).1 hx
    rcases folderEvs_key hx (hok x hx) he hb (by omega) hk with ⟨q1, _⟩ | ⟨q1, fl, q2, i, q3, q4⟩
    · exact hne (eq_of_fst_nodup hd.top hxt hm (hone x hxt q1))
    · obtain ⟨xn, xc⟩ := x
      cases xc with
      | none =>
        unfold ecoDirsOf at q2
        simp at q2
      | some content =>
        have := hpos b fl.1 fl.2 i ⟨xn, content, hxt, q1, ((ecoDirsOf_plug hl hxt q1 fl).2).1 q2⟩ q3
        omega

theorem plugDirs_names {tree : EcoTree} (hl : PlugLayout tree) (hd : EcoDistinct tree) {name : Str} {content : List (Str × EcoSub)}
    (hm : (name, some content) ∈ tree) {b : Nat} (hp : IsPlugFolder b name) :
    ((ecoDirsOf (name, some content)).map Prod.fst).Nodup := by
  have hk := ((isPlugFolder_iff b name).1 hp).2.1
  unfold ecoDirsOf ecoDirList
  simp only [hk, true_and, List.length_insertionSort]
  rcases hl name content b hm hp with ⟨h3, h4⟩ | ⟨sub, rfl, h5⟩
  · rw [if_neg (by omega)]
    simp only [List.map_map]
    have : (Prod.fst ∘ fun d : Str × EcoSub => (d.1, d.2.files)) = Prod.fst := rfl
    rw [this, ((List.perm_insertionSort _ _).map Prod.fst).nodup_iff]
    exact hd.folders name content hm
  · rw [if_pos (by simp)]
    simp only [List.insertionSort_cons, List.insertionSort_nil, List.orderedInsert_nil, List.lookup_cons, beq_self_eq_true]
    exact hd.nested name _ (name.take 2) sub hm (by simp)

/-- C103. If a building has one folder of plugs and the plug one directory, and the names of the files are in the order of the days, the times in
the table of the plug increase. -/
theorem C103_plug_order_partial {n : Nat} {cfg : EcoConfig} {tree : EcoTree} (hl : PlugLayout tree)
    (hd : EcoDistinct tree) {st : RawStore (List (Option Rat))} (h : ecoConvert n cfg tree = (st, none)) (b i : Nat) (hb : 1 ≤ b)
    (hi : 1 ≤ i) (d : Str) (files : EcoFiles) (hpd : PlugDir tree b d files) (hdi : pyInt d = some (i : Int))
    (hfolder : ∀ e ∈ tree, ∀ e' ∈ tree, IsPlugFolder b e.1 → IsPlugFolder b e'.1 → e.1 = e'.1)
    (hone : ∀ d' files', PlugDir tree b d' files' → pyInt d' = some (i : Int) → d' = d)
    (hfn : (files.map Prod.fst).Nodup)
    (hdays : DaysFollow n (fun s => cfg.day (s.map (fun c => if c = '.' then ':' else c))) files)
    (tab : RawTable (List (Option Rat))) (ht : st (meterKey b (i + 3)) = some tab) : (tab.rows.map Prod.fst).Pairwise (· < ·) := by
  obtain ⟨hok, hap, _, _⟩ := (ecoConvert_iff n cfg tree st).1 h
  obtain ⟨_, h2⟩ := ecoApply_rows hap (by simp)
  obtain ⟨a1, _, _⟩ := h2 (meterKey b (i + 3))
  have hempty : ecoRowsAt (fun _ => none) (meterKey b (i + 3)) = [] := rfl
  rw [hempty, List.nil_append] at a1
  have hrows : ecoRowsAt st (meterKey b (i + 3)) = tab.rows := by
    unfold ecoRowsAt
    rw [ht]
    rfl
  rw [← hrows, a1]
  have hgood := plugDir_ok hl hok hpd
  have hpd' := hpd
  obtain ⟨name, content, hm, hpf, hpos⟩ := hpd
  obtain ⟨k1, k2, k3⟩ := (isPlugFolder_iff b name).1 hpf
  have hmem := (ecoFolders_mem tree (name, some content)).2 ⟨hm, k1⟩
  unfold ecoEvs
  rw [List.flatMap_assoc, flatMap_only (ecoFolders_nodup hd) hmem]
  · unfold folderEvs
    rw [List.flatMap_assoc]
    have hin : (d, files) ∈ ecoDirsOf (name, some content) := ((ecoDirsOf_plug hl hm hpf (d, files)).2).2 hpos
    rw [flatMap_only (List.Nodup.of_map Prod.fst (plugDirs_names hl hd hm hpf)) hin]
    · simp only [k2, k3, if_true, Option.getD_some]
      unfold plugDirEvs
      rw [List.flatMap_map]
      have hsel : ∀ f : Str × List EcoRow, (if (plugEv cfg (meterKey ((b : Int)).toNat (((pyInt d).getD 0) + 3).toNat) f).1 =
          meterKey b (i + 3) then (plugEv cfg (meterKey ((b : Int)).toNat (((pyInt d).getD 0) + 3).toNat) f).2.rows else []) =
          ecoKept ((cfg.day (plugStem f.1)).getD 0) (f.2.map (fun r => [r 1])) := by
        intro f
        have hin : ((i : Int) + 3).toNat = i + 3 := by omega
        unfold plugEv
        rw [hdi]
        simp only [Option.getD_some, Int.toNat_natCast, hin, if_true]
      simp only [hsel]
      unfold EcoDirOk at hgood
      simp only [if_true] at hgood
      obtain ⟨_, _, _, _, _, hall⟩ := hgood
      exact ecoDays_sorted hfn (fun s => cfg.day (s.map (fun c => if c = '.' then ':' else c))) hdays (fun r => [r 1]) hall
    · intro fl hfl hne
      simp only [k2, k3, if_true, Option.getD_some]
      refine flatMap_nil_of ?_
      intro e he
      rw [if_neg]
      intro hk
      have hfpd : PlugDir tree b fl.1 fl.2 := ⟨name, content, hm, hpf, ((ecoDirsOf_plug hl hm hpf fl).2).1 hfl⟩
      have hfo := plugDir_ok hl hok hfpd
      unfold EcoDirOk at hfo
      simp only [if_true] at hfo
      obtain ⟨j, hj, _, hj3, _, _⟩ := hfo
      unfold plugDirEvs at he
      obtain ⟨g, _, rfl⟩ := List.mem_map.1 he
      unfold plugEv at hk
      simp only [hj, Option.getD_some, Int.toNat_natCast] at hk
      have hji := (meterKey_inj hb (by omega) hb (by omega) hk).2
      have hji' : j = (i : Int) := by omega
      subst hji'
      have := hone fl.1 fl.2 hfpd hj
      exact hne (eq_of_fst_nodup (plugDirs_names hl hd hm hpf) hfl hin this)
  · intro x hx hne
    refine flatMap_nil_of ?_
    intro e he
    rw [if_neg]
    intro hk
    obtain ⟨hxt, _⟩ := (ecoFolders_mem tree x).1 hx
    rcases folderEvs_key hx (hok x hx) he hb (by omega) hk with ⟨_, q2⟩ | ⟨q1, _⟩
    · omega
    · exact hne (eq_of_fst_nodup hd.top hxt hm (hfolder x hxt _ hm q1 hpf))

/-- C103. A conversion that succeeds has checked every file: it has a readable day and a row for every second, and every plug has a number and a
file. A file with fewer or more rows, a wrong name or an empty directory of a plug stops the conversion. -/
theorem C103_checked_partial {n : Nat} {cfg : EcoConfig} {tree : EcoTree} (hl : PlugLayout tree)
    {st : RawStore (List (Option Rat))} (h : ecoConvert n cfg tree = (st, none)) :
    (∀ b f, SmCsv tree b f → f.2.length = n ∧ ∃ stem, IsStem stem f.1 ∧ (cfg.day stem).isSome = true) ∧
    ∀ b d files, PlugDir tree b d files → (∃ i, pyInt d = some i) ∧ (∃ f ∈ files, ".csv".toList <:+: f.1) ∧
      ∀ f ∈ files, ".csv".toList <:+: f.1 → f.2.length = n ∧
        ∃ stem, IsStem stem f.1 ∧ (cfg.day (stem.map (fun c => if c = '.' then ':' else c))).isSome = true := by
  obtain ⟨hok, hap, _, _⟩ := (ecoConvert_iff n cfg tree st).1 h
  constructor
  · rintro b f ⟨name, content, sub, g1, g2, g3, g4, g5⟩
    obtain ⟨k1, k2, k3⟩ := (isSmFolder_iff b name).1 g2
    have hF := hok _ ((ecoFolders_mem _ _).2 ⟨g1, k1⟩)
    unfold EcoFolderOk at hF
    simp only at hF
    rcases hF with hs | ⟨_, hn | ⟨plugs, content', dirs, j1, j2, j3, j4⟩⟩
    · unfold ecoKind at k2
      rw [if_pos hs] at k2
      cases k2
    · rw [k2] at hn
      cases hn
    · rw [k2] at j1
      cases j1
      cases j2
      have hdirs : ecoDirsOf (name, some content) = dirs := by
        unfold ecoDirsOf
        simp only [k2, j3]
      have := j4 (sub.1, sub.2.files) (by rw [← hdirs]; exact (ecoDirsOf_sm k2 _).2 ⟨sub, g3, rfl⟩)
      unfold EcoDirOk at this
      simp only [Bool.false_eq_true, if_false] at this
      obtain ⟨_, t1, t2⟩ := this f ((ecoCsvs_mem _ _).2 ⟨g4, g5⟩)
      exact ⟨t2, _, (isStem_iff (csv_length g5) _).2 rfl, t1⟩
  · intro b d files hpd
    have := plugDir_ok hl hok hpd
    unfold EcoDirOk at this
    simp only [if_true] at this
    obtain ⟨i, i1, _, _, i4, i5⟩ := this
    obtain ⟨f, hf⟩ := List.exists_mem_of_ne_nil _ i4
    obtain ⟨f1, f2⟩ := (ecoCsvs_mem _ _).1 hf
    refine ⟨⟨i, i1⟩, ⟨f, f1, f2⟩, ?_⟩
    intro g g1 g2
    obtain ⟨t1, t2⟩ := i5 g ((ecoCsvs_mem _ _).2 ⟨g1, g2⟩)
    exact ⟨t2, _, (isStem_iff (csv_length g2) _).2 rfl, t1⟩

/-- C103. The converter itself takes a day to be 24 hours: it succeeds only if every file has a row for every second of a day. -/
theorem C103_full_days_partial {cfg : EcoConfig} {tree : EcoTree} (hl : PlugLayout tree) {st : RawStore (List (Option Rat))}
    (h : convertEco cfg (some tree) = (st, none)) :
    (∀ b f, SmCsv tree b f → f.2.length = 24 * 60 * 60) ∧ ∀ b i f, PlugCsv tree b i f → f.2.length = 24 * 60 * 60 := by
  unfold convertEco at h
  obtain ⟨h1, h2⟩ := C103_checked_partial hl h
  exact ⟨fun b f hf => (h1 b f hf).1, fun b i f ⟨d, files, k1, _, k3, k4⟩ => ((h2 b d files k1).2.2 f k3 k4).1⟩

/-! ### Examples -/

/-- Days for examples, with two seconds each. -/
def ecoDayEx (s : Str) : Option Int :=
  if s = "2012-06-01".toList then some 0 else if s = "2012-06-02".toList then some 2000000000 else none

/-- Inputs for examples. -/
def ecoCfgEx : EcoConfig := ⟨ecoDayEx, fun p a => p * a⟩

/-- A directory of a plug with one file, in which the first second is missing. -/
def ecoPlugEx (x : Rat) : EcoSub := ⟨[("2012-06-01.csv".toList, [fun _ => some (-1), fun _ => some x])], []⟩

/-- A directory of a smart meter with two files, in the wrong order. -/
def ecoSmEx : EcoSub :=
  ⟨[("2012-06-02.csv".toList, [fun c => some (c : Rat), fun c => some (c : Rat)]),
    ("readme".toList, []),
    ("2012-06-01.csv".toList, [fun c => if c = 2 then some (-1) else some (c : Rat), fun c => some (c : Rat)])], []⟩

/-- A dataset with a building in the flat layout. -/
def ecoTreeEx : EcoTree :=
  [("01_sm_csv".toList, some [("01".toList, ecoSmEx)]), ("notes.txt".toList, none),
    ("01_plugs_csv".toList, some [("03".toList, ecoPlugEx 3), ("01".toList, ecoPlugEx 1), ("02".toList, ecoPlugEx 2)])]

/-- The same with a second building, which has two plugs only. -/
def ecoTwoEx : EcoTree := ecoTreeEx ++ [("02_plugs_csv".toList, some [("01".toList, ecoPlugEx 5), ("02".toList, ecoPlugEx 6)])]

example : (ecoConvert 2 ecoCfgEx ecoTreeEx).2 = none ∧
    ((ecoConvert 2 ecoCfgEx ecoTreeEx).1 (meterKey 1 1)).map (fun t => t.rows.map Prod.fst) =
      some [1000000000, 2000000000, 3000000000] ∧
    (ecoConvert 2 ecoCfgEx ecoTreeEx).1 (meterKey 1 6) = some ⟨[("power", "active")], [(1000000000, [some 3])]⟩ := by decide +kernel

theorem ecoTreeEx_layout : PlugLayout ecoTreeEx := by
  intro name content b hm hp
  simp only [ecoTreeEx, List.mem_cons, Prod.mk.injEq, Option.some.injEq, List.not_mem_nil, or_false, reduceCtorEq, and_false,
    false_or] at hm
  rcases hm with ⟨rfl, rfl⟩ | ⟨rfl, rfl⟩
  · exact absurd (by decide) hp.2.2.1
  · left
    refine ⟨by simp, ?_⟩
    intro e he
    simp only [List.mem_cons, List.not_mem_nil, or_false] at he
    rcases he with rfl | rfl | rfl <;> rfl

theorem ecoTreeEx_plugDir {b : Nat} {d : Str} {files : EcoFiles} (h : PlugDir ecoTreeEx b d files) :
    ∃ x, files = (ecoPlugEx x).files ∧ (d = "01".toList ∨ d = "02".toList ∨ d = "03".toList) := by
  obtain ⟨name, content, hm, hp, h⟩ := h
  simp only [ecoTreeEx, List.mem_cons, Prod.mk.injEq, Option.some.injEq, List.not_mem_nil, or_false, reduceCtorEq, and_false,
    false_or] at hm
  rcases hm with ⟨rfl, rfl⟩ | ⟨rfl, rfl⟩
  · exact absurd (by decide) hp.2.2.1
  · simp only [List.mem_cons, Prod.mk.injEq, List.not_mem_nil, or_false] at h
    rcases h with ⟨sub, h1, _, rfl⟩ | ⟨sub, h1, h2⟩
    · rcases h1 with ⟨rfl, rfl⟩ | ⟨rfl, rfl⟩ | ⟨rfl, rfl⟩
      · exact ⟨3, rfl, .inr (.inr rfl)⟩
      · exact ⟨1, rfl, .inl rfl⟩
      · exact ⟨2, rfl, .inr (.inl rfl)⟩
    · exfalso
      rcases h1 with ⟨_, rfl⟩ | ⟨_, rfl⟩ | ⟨_, rfl⟩ <;> simp [ecoPlugEx] at h2

theorem ecoTreeEx_smCsv {b : Nat} {f : Str × List EcoRow} (h : SmCsv ecoTreeEx b f) :
    f.2.length = 2 ∧ (f.1 = "2012-06-01.csv".toList ∨ f.1 = "2012-06-02.csv".toList) := by
  obtain ⟨name, content, sub, hm, hp, h1, h2, h3⟩ := h
  simp only [ecoTreeEx, List.mem_cons, Prod.mk.injEq, Option.some.injEq, List.not_mem_nil, or_false, reduceCtorEq, and_false,
    false_or] at hm
  rcases hm with ⟨rfl, rfl⟩ | ⟨rfl, rfl⟩
  · rw [List.mem_singleton] at h1
    subst h1
    simp only [ecoSmEx, List.mem_cons, List.not_mem_nil, or_false] at h2
    rcases h2 with rfl | rfl | rfl
    · exact ⟨rfl, .inr rfl⟩
    · exact absurd h3 (by decide)
    · exact ⟨rfl, .inl rfl⟩
  · exact absurd hp.2.2 (by decide)

example : PlugsPositive ecoTreeEx := by
  intro b d files i h hi
  obtain ⟨x, _, h | h | h⟩ := ecoTreeEx_plugDir h
  · subst h
    rw [show pyInt "01".toList = some 1 by decide +kernel] at hi
    cases hi
    decide
  · subst h
    rw [show pyInt "02".toList = some 2 by decide +kernel] at hi
    cases hi
    decide
  · subst h
    rw [show pyInt "03".toList = some 3 by decide +kernel] at hi
    cases hi
    decide

example : EcoTidy 2 ecoCfgEx ecoTreeEx where
  numbered := by
    intro e he hv
    simp only [ecoTreeEx, List.mem_cons, List.not_mem_nil, or_false] at he
    rcases he with rfl | rfl | rfl
    · exact ⟨1, by omega, by decide +kernel⟩
    · exact absurd (by decide) hv.1
    · exact ⟨1, by omega, by decide +kernel⟩
  folders := by
    intro e he b h
    simp only [ecoTreeEx, List.mem_cons, List.not_mem_nil, or_false] at he
    rcases he with rfl | rfl | rfl
    · rfl
    · exfalso
      rcases h with h | h <;> exact absurd (by decide) h.1.1
    · rfl
  smFiles := by
    intro b f hf
    obtain ⟨h1, h2⟩ := ecoTreeEx_smCsv hf
    refine ⟨h1, ?_⟩
    rcases h2 with h2 | h2
    · exact ⟨"2012-06-01".toList, ⟨".csv".toList, by decide, by rw [h2]; decide⟩, by decide +kernel⟩
    · exact ⟨"2012-06-02".toList, ⟨".csv".toList, by decide, by rw [h2]; decide⟩, by decide +kernel⟩
  plugDirs := by
    intro b d files h
    obtain ⟨x, hx, h'⟩ := ecoTreeEx_plugDir h
    have hnum : ∃ i : Nat, 1 ≤ i ∧ pyInt d = some (i : Int) := by
      rcases h' with rfl | rfl | rfl
      · exact ⟨1, by omega, by decide +kernel⟩
      · exact ⟨2, by omega, by decide +kernel⟩
      · exact ⟨3, by omega, by decide +kernel⟩
    obtain ⟨i, i1, i2⟩ := hnum
    have hin : ("2012-06-01.csv".toList, [fun _ => some (-1), fun _ => some x]) ∈ files := by rw [hx]; simp [ecoPlugEx]
    exact ⟨i, i1, i2, _, ⟨d, files, h, i2, hin, show ".csv".toList <:+: "2012-06-01.csv".toList by decide⟩, hin⟩
  plugFiles := by
    rintro b i f ⟨d, files, h, _, hf, _⟩
    obtain ⟨x, rfl, _⟩ := ecoTreeEx_plugDir h
    simp only [ecoPlugEx, List.mem_singleton] at hf
    subst hf
    exact ⟨rfl, "2012-06-01".toList, ⟨".csv".toList, by decide, show "2012-06-01.csv".toList = _ by decide⟩, by decide +kernel⟩

example : EcoDistinct ecoTreeEx where
  top := by decide
  folders := by
    intro name content h
    simp only [ecoTreeEx, List.mem_cons, Prod.mk.injEq, Option.some.injEq, List.not_mem_nil, or_false, reduceCtorEq, and_false,
      false_or] at h
    rcases h with ⟨rfl, rfl⟩ | ⟨rfl, rfl⟩ <;> decide
  nested := by
    intro name content d sub h hs
    simp only [ecoTreeEx, List.mem_cons, Prod.mk.injEq, Option.some.injEq, List.not_mem_nil, or_false, reduceCtorEq, and_false,
      false_or] at h
    rcases h with ⟨rfl, rfl⟩ | ⟨rfl, rfl⟩
    · simp only [List.mem_singleton, Prod.mk.injEq] at hs
      obtain ⟨_, rfl⟩ := hs
      decide
    · simp only [List.mem_cons, Prod.mk.injEq, List.not_mem_nil, or_false] at hs
      rcases hs with ⟨_, rfl⟩ | ⟨_, rfl⟩ | ⟨_, rfl⟩ <;> simp [ecoPlugEx]

example : DaysFollow 2 ecoDayEx ecoSmEx.files := by
  intro f hf g hg hfc hgc hne hle a b sf sg ha hb hsf hsg
  rw [isStem_iff (csv_length hfc)] at ha
  rw [isStem_iff (csv_length hgc)] at hb
  subst ha
  subst hb
  simp only [ecoSmEx, List.mem_cons, List.not_mem_nil, or_false] at hf hg
  rcases hf with rfl | rfl | rfl <;> rcases hg with rfl | rfl | rfl
  · exact absurd rfl hne
  · exact absurd hgc (by decide)
  · exact absurd hle (by decide)
  · exact absurd hfc (by decide)
  · exact absurd hfc (by decide)
  · exact absurd hfc (by decide)
  · rw [show ecoDayEx (smStem "2012-06-01.csv".toList) = some 0 by decide +kernel] at hsf
    rw [show ecoDayEx (smStem "2012-06-02.csv".toList) = some 2000000000 by decide +kernel] at hsg
    cases hsf
    cases hsg
    norm_num
  · exact absurd hgc (by decide)
  · exact absurd rfl hne

/-- C103, negated: a dataset may lose the readings of a building. The folder of building 2 has two plugs, which is taken for the other layout; the
conversion succeeds, there is a file with a reading of plug 1 of building 2, and the store has no table for it. -/
theorem C103_few_plugs_counterexample :
    (ecoConvert 2 ecoCfgEx ecoTwoEx).2 = none ∧ (ecoConvert 2 ecoCfgEx ecoTwoEx).1 (meterKey 2 4) = none ∧
    ∃ f, PlugCsv ecoTwoEx 2 1 f ∧ PlugReading ecoCfgEx f 1000000000 [some 5] := by
  refine ⟨by decide +kernel, by decide +kernel, ("2012-06-01.csv".toList, [fun _ => some (-1), fun _ => some 5]), ?_, ?_⟩
  · refine ⟨"01".toList, (ecoPlugEx 5).files, ⟨"02_plugs_csv".toList, [("01".toList, ecoPlugEx 5), ("02".toList, ecoPlugEx 6)], ?_, ?_, .inl
      ⟨ecoPlugEx 5, by simp, rfl, rfl⟩⟩, by decide +kernel, by simp [ecoPlugEx], by decide⟩
    · unfold ecoTwoEx
      simp
    · refine ⟨⟨by decide, by decide, by decide⟩, by decide +kernel, by decide, by decide⟩
  · exact ⟨"2012-06-01".toList, 0, 1, fun _ => some 5, ⟨".csv".toList, by decide, by decide⟩, by decide +kernel, rfl, by norm_num, by decide +kernel,
      rfl⟩

end Nilmtk
