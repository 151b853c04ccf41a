import Verif.Model.MeanSave
import Verif.Props.Mean
import Verif.Props.Key
import Verif.Props.CO
import Verif.Props.Experiment
/-!
C98: what the mean disaggregator writes to `model.txt`, and what an object that loads it knows.
-/
namespace Nilmtk

/-! ### Writing and reading texts -/

theorem hexVal_hexDigit : ∀ d < 16, hexVal (hexDigit d) = some d := by decide

theorem hexFour_digits (n : Nat) (h : n < 65536) (r : Str) :
    hexFour (hexDigit (n / 4096 % 16) :: hexDigit (n / 256 % 16) :: hexDigit (n / 16 % 16) :: hexDigit (n % 16) :: r) =
      some (n, r) := by
  simp only [hexFour, hexVal_hexDigit _ (Nat.mod_lt _ (by decide : 0 < 16))]
  congr 2
  omega

theorem charOfNat_toNat (c : Char) : Char.ofNat c.toNat = c := by simp

theorem char_range (c : Char) : c.toNat < 55296 ∨ (57343 < c.toNat ∧ c.toNat < 1114112) := by
  have := c.valid
  simpa [UInt32.isValidChar, Nat.isValidChar] using this

/-- The four digits of a `\u` escape. -/
def fourHex (n : Nat) (r : Str) : Str :=
  hexDigit (n / 4096 % 16) :: hexDigit (n / 256 % 16) :: hexDigit (n / 16 % 16) :: hexDigit (n % 16) :: r

theorem hexEscape_eq (n : Nat) (r : Str) : hexEscape n ++ r = '\\' :: 'u' :: fourHex n r := rfl

theorem hexFour_fourHex (n : Nat) (h : n < 65536) (r : Str) : hexFour (fourHex n r) = some (n, r) := hexFour_digits n h r

theorem lowSurrogate_fourHex (m : Nat) (h1 : 56320 ≤ m) (h2 : m ≤ 57343) (r : Str) :
    lowSurrogate ('\\' :: 'u' :: fourHex m r) = some (m, r) := by
  unfold lowSurrogate
  simp only
  rw [hexFour_fourHex m (by omega)]
  simp only
  rw [if_pos ⟨h1, h2⟩]

theorem escapedUnit_plain (n : Nat) (h : n < 55296 ∨ (57343 < n ∧ n < 65536)) (r : Str) :
    escapedUnit (fourHex n r) = some (Char.ofNat n, r) := by
  unfold escapedUnit
  rw [hexFour_fourHex n (by omega)]
  simp only
  rw [if_neg (by omega), if_neg (by omega)]

theorem escapedUnit_pair (n m : Nat) (hn : 55296 ≤ n) (hn' : n ≤ 56319) (hm : 56320 ≤ m) (hm' : m ≤ 57343) (r : Str) :
    escapedUnit (fourHex n ('\\' :: 'u' :: fourHex m r)) = some (Char.ofNat (65536 + (n - 55296) * 1024 + (m - 56320)), r) := by
  unfold escapedUnit
  rw [hexFour_fourHex n (by omega)]
  simp only
  rw [if_pos ⟨hn, hn'⟩, lowSurrogate_fourHex m hm hm']

theorem afterBackslash_u (r : Str) : afterBackslash ('u' :: r) = escapedUnit r := rfl

theorem surrogates (k : Nat) (h : 65536 ≤ k) (h' : k < 1114112) :
    ∃ n m, n = 55296 + (k - 65536) / 1024 ∧ m = 56320 + (k - 65536) % 1024 ∧ 55296 ≤ n ∧ n ≤ 56319 ∧ 56320 ≤ m ∧ m ≤ 57343 ∧
      65536 + (n - 55296) * 1024 + (m - 56320) = k := by
  refine ⟨_, _, rfl, rfl, ?_, ?_, ?_, ?_, ?_⟩ <;> omega

theorem scanString_escape (fuel : Nat) (c : Char) (r : Str) :
    scanString (fuel + 1) (jsonEscape c ++ r) = (scanString fuel r).map (fun p => (c :: p.1, p.2)) := by
  have hbs : ∀ (x : Char) (cs rest : Str), afterBackslash cs = some (x, rest) →
      scanString (fuel + 1) ('\\' :: cs) = (scanString fuel rest).map (fun p => (x :: p.1, p.2)) := by
    intro x cs rest h
    conv_lhs => unfold scanString
    rw [if_neg (by decide), if_pos rfl, h]
  unfold jsonEscape
  split
  · rename_i h; rw [h]; exact hbs _ _ _ rfl
  split
  · rename_i h; rw [h]; exact hbs _ _ _ rfl
  split
  · rename_i h; rw [h]; exact hbs _ _ _ rfl
  split
  · rename_i h; rw [h]; exact hbs _ _ _ rfl
  split
  · rename_i h; rw [h]; exact hbs _ _ _ rfl
  split
  · rename_i h; rw [h]; exact hbs _ _ _ rfl
  split
  · rename_i h; rw [h]; exact hbs _ _ _ rfl
  split
  · rename_i h1 h2 _ _ _ _ _ h3
    show scanString (fuel + 1) (c :: r) = _
    conv_lhs => unfold scanString
    rw [if_neg h1, if_neg h2, if_neg (by omega)]
  split
  · rename_i h
    have hr := char_range c
    rw [hexEscape_eq]
    have := hbs (Char.ofNat c.toNat) ('u' :: fourHex c.toNat r) r
      (by rw [afterBackslash_u]; exact escapedUnit_plain c.toNat (by omega) r)
    rw [this, charOfNat_toNat]
  · rename_i h
    have hr := char_range c
    obtain ⟨n, m, hn, hm, h1, h2, h3, h4, h5⟩ := surrogates c.toNat (by omega) (by omega)
    rw [List.append_assoc, ← hn, ← hm, hexEscape_eq, hexEscape_eq]
    have := hbs (Char.ofNat c.toNat) ('u' :: fourHex n ('\\' :: 'u' :: fourHex m r)) r
      (by rw [afterBackslash_u, escapedUnit_pair n m h1 h2 h3 h4 r, h5])
    rw [this, charOfNat_toNat]

theorem scanString_written (s : Str) (r : Str) : ∀ fuel, s.length < fuel →
    scanString fuel (s.flatMap jsonEscape ++ '"' :: r) = some (s, r) := by
  induction s with
  | nil =>
    intro fuel h
    cases fuel with
    | zero => omega
    | succ fuel => rfl
  | cons c s ih =>
    intro fuel h
    cases fuel with
    | zero => omega
    | succ fuel =>
      rw [List.flatMap_cons, List.append_assoc, scanString_escape, ih fuel (by simpa using h)]
      rfl

theorem jsonEscape_pos (c : Char) : 1 ≤ (jsonEscape c).length := by
  unfold jsonEscape hexEscape
  repeat' split
  all_goals simp

theorem escaped_length (s : Str) : s.length ≤ (s.flatMap jsonEscape).length := by
  induction s with
  | nil => simp
  | cons c s ih =>
    rw [List.flatMap_cons, List.length_append, List.length_cons]
    have := jsonEscape_pos c
    omega

theorem scanDigits_formatNat (n : Nat) : ∀ (r : Str), 0 < n →
    scanDigits 0 (formatNat n ++ r) = scanDigits n r := by
  induction n using Nat.strongRecOn with
  | _ n ih =>
    intro r hn
    rw [formatNat]
    split
    · rename_i h
      simp only [List.cons_append, List.nil_append, scanDigits, digitVal_digitChar n h]
      congr 1
      omega
    · rw [List.append_assoc, ih (n / 10) (by omega) _ (by omega)]
      simp only [List.cons_append, List.nil_append, scanDigits, digitVal_digitChar (n % 10) (by omega)]
      congr 1
      omega

/-- The texts after which a number is complete. -/
def NumberEnds (r : Str) : Prop :=
  ∀ c ∈ r.head?, digitVal c = none ∧ c ≠ '.' ∧ c ≠ 'e' ∧ c ≠ 'E'

theorem scanDigits_end (n : Nat) (r : Str) (h : NumberEnds r) : scanDigits n r = (n, r) := by
  cases r with
  | nil => rfl
  | cons c r =>
    have := (h c rfl).1
    unfold scanDigits
    rw [this]

theorem formatNat_head (n : Nat) : 0 < n → ∃ d cs, 0 < d ∧ d < 10 ∧ formatNat n = digitChar d :: cs := by
  induction n using Nat.strongRecOn with
  | _ n ih =>
    intro hn
    rw [formatNat]
    split
    · exact ⟨n, [], hn, by assumption, rfl⟩
    · obtain ⟨d, cs, h1, h2, h3⟩ := ih (n / 10) (by omega) (by omega)
      exact ⟨d, cs ++ [digitChar (n % 10)], h1, h2, by rw [h3]; rfl⟩

theorem scanNat_formatNat (n : Nat) (r : Str) (h : NumberEnds r) : scanNat (formatNat n ++ r) = some (n, r) := by
  by_cases hn : n = 0
  · subst hn
    rw [show formatNat 0 = ['0'] by rw [formatNat]; rfl]
    rfl
  · obtain ⟨d, cs, h1, h2, h3⟩ := formatNat_head n (by omega)
    have hs := scanDigits_formatNat n r (by omega)
    rw [scanDigits_end n r h] at hs
    rw [h3] at hs ⊢
    simp only [List.cons_append, scanDigits, digitVal_digitChar d h2] at hs
    simp only [List.cons_append, scanNat, digitVal_digitChar d h2]
    rw [if_neg (by omega)]
    rw [Nat.zero_mul, Nat.zero_add] at hs
    rw [hs]

theorem formatNat_first (n : Nat) : ∃ d cs, d < 10 ∧ formatNat n = digitChar d :: cs := by
  cases h : formatNat n with
  | nil => exact absurd h (formatNat_ne_nil n)
  | cons c cs =>
    obtain ⟨d, hd, hc⟩ := formatNat_digits n c (by rw [h]; exact List.mem_cons_self)
    exact ⟨d, cs, hd, by rw [hc]⟩

theorem scanSigned_written (n : Int) (r : Str) (h : NumberEnds r) : scanSigned (jsonInt n ++ r) = some (n, r) := by
  unfold jsonInt
  split
  · simp only [List.cons_append, scanSigned, if_true, scanNat_formatNat _ r h, Option.map_some]
    rw [show (-(n.natAbs : Int)) = n by omega]
  · obtain ⟨d, cs, hd, hf⟩ := formatNat_first n.natAbs
    have hs := scanNat_formatNat n.natAbs r h
    rw [hf] at hs ⊢
    simp only [List.cons_append] at hs ⊢
    unfold scanSigned
    simp only
    rw [if_neg (digitChar_facts d hd).2.1, hs]
    simp only [Option.map_some]
    rw [show ((n.natAbs : Int)) = n by omega]

theorem scanInt_written (n : Int) (r : Str) (h : NumberEnds r) : scanInt (jsonInt n ++ r) = some (n, r) := by
  unfold scanInt
  rw [scanSigned_written n r h]
  simp only
  rw [if_neg]
  cases r with
  | nil => simp
  | cons c r =>
    have := h c rfl
    simp only [List.head?_cons, List.mem_cons, Option.some.injEq, List.not_mem_nil, or_false]
    tauto

theorem skipBlank_cons (c : Char) (cs : Str) (h : c ≠ ' ' ∧ c ≠ '\t' ∧ c ≠ '\n' ∧ c ≠ '\r') :
    skipBlank (c :: cs) = c :: cs := by
  unfold skipBlank
  rw [if_neg]
  tauto

/-- A value that is read back, whatever follows it in a JSON object, and that does not begin with white space. -/
structure ReadsBack {α : Type} (enc : α → Str) (value : Str → Option (α × Str)) : Prop where
  reads : ∀ (v : α) (c : Char) (r : Str), c = ',' ∨ c = '}' → value (enc v ++ c :: r) = some (v, c :: r)
  front : ∀ (v : α) (r : Str), skipBlank (enc v ++ r) = enc v ++ r

theorem scanItems_written {α : Type} {enc : α → Str} {value : Str → Option (α × Str)} (h : ReadsBack enc value)
    (r : Str) : ∀ (d : List (Str × α)) (fuel : Nat), d ≠ [] → d.length < fuel + 1 →
    scanItems value fuel (jsonItems enc d ++ '}' :: r) = some (d, r) := by
  intro d
  induction d with
  | nil => intro fuel h; exact absurd rfl h
  | cons e d ih =>
    obtain ⟨k, v⟩ := e
    intro fuel _ hf
    cases fuel with
    | zero => simp at hf
    | succ fuel =>
      have hkey : ∀ tail : Str, scanString ((k.flatMap jsonEscape ++ '"' :: tail).length + 1)
          (k.flatMap jsonEscape ++ '"' :: tail) = some (k, tail) := by
        intro tail
        apply scanString_written
        have := escaped_length k
        rw [List.length_append]
        omega
      cases d with
      | nil =>
        have hshape : jsonItems enc [(k, v)] ++ '}' :: r =
            '"' :: (k.flatMap jsonEscape ++ '"' :: (':' :: ' ' :: (enc v ++ '}' :: r))) := by
          simp [jsonItems, jsonString]
        rw [hshape]
        unfold scanItems
        simp only [hkey]
        rw [skipBlank_cons ':' _ (by decide)]
        simp only
        rw [show skipBlank (' ' :: (enc v ++ '}' :: r)) = skipBlank (enc v ++ '}' :: r) from rfl, h.front,
          h.reads v '}' r (Or.inr rfl)]
        simp only
        rw [skipBlank_cons '}' _ (by decide)]
        rfl
      | cons e' d' =>
        have hshape : jsonItems enc ((k, v) :: e' :: d') ++ '}' :: r =
            '"' :: (k.flatMap jsonEscape ++ '"' :: (':' :: ' ' :: (enc v ++ ',' :: (' ' ::
              (jsonItems enc (e' :: d') ++ '}' :: r))))) := by
          simp [jsonItems, jsonString]
        rw [hshape]
        have hfront : ∃ tail, jsonItems enc (e' :: d') ++ '}' :: r = '"' :: tail := by
          cases d' <;> simp [jsonItems, jsonString]
        have hsk : skipBlank (' ' :: (jsonItems enc (e' :: d') ++ '}' :: r)) = jsonItems enc (e' :: d') ++ '}' :: r := by
          obtain ⟨tail, ht⟩ := hfront
          rw [ht]
          rfl
        unfold scanItems
        simp only [hkey]
        rw [skipBlank_cons ':' _ (by decide)]
        simp only
        rw [show ∀ s, skipBlank (' ' :: s) = skipBlank s from fun _ => rfl, h.front, h.reads v ',' _ (Or.inl rfl)]
        simp only
        rw [skipBlank_cons ',' _ (by decide)]
        simp only
        rw [hsk, ih fuel (by simp) (by simpa using hf)]
        rfl

theorem items_length {α : Type} (enc : α → Str) (d : List (Str × α)) : d.length ≤ (jsonItems enc d).length := by
  induction d with
  | nil => simp [jsonItems]
  | cons e d ih =>
    cases d with
    | nil => simp [jsonItems]; omega
    | cons e' d' =>
      simp only [jsonItems, List.length_append, List.length_cons] at ih ⊢
      omega

theorem scanObject_written {α : Type} {enc : α → Str} {value : Str → Option (α × Str)} (h : ReadsBack enc value)
    (d : List (Str × α)) (r : Str) : scanObject value (jsonObject enc d ++ r) = some (d, r) := by
  cases d with
  | nil => rfl
  | cons e d =>
    have hshape : jsonObject enc (e :: d) ++ r = '{' :: (jsonItems enc (e :: d) ++ '}' :: r) := by simp [jsonObject]
    have hfront : ∃ tail, jsonItems enc (e :: d) ++ '}' :: r = '"' :: tail := by
      cases d <;> simp [jsonItems, jsonString]
    have hrun : scanItems value ((jsonItems enc (e :: d) ++ '}' :: r).length + 1) (jsonItems enc (e :: d) ++ '}' :: r) =
        some (e :: d, r) := by
      apply scanItems_written h r (e :: d) _ (by simp)
      have := items_length enc (e :: d)
      rw [List.length_append]
      omega
    rw [hshape]
    obtain ⟨tail, ht⟩ := hfront
    rw [ht] at hrun ⊢
    unfold scanObject
    simp only
    rw [skipBlank_cons '"' _ (by decide)]
    exact hrun

theorem reads_int : ReadsBack jsonInt scanInt where
  reads := by
    intro v c r hc
    apply scanInt_written
    intro x hx
    rw [List.head?_cons, Option.mem_some_iff] at hx
    rw [← hx]
    rcases hc with rfl | rfl <;> decide
  front := by
    intro v r
    unfold jsonInt
    split
    · exact skipBlank_cons '-' _ (by decide)
    · obtain ⟨d, cs, hd, hf⟩ := formatNat_first v.natAbs
      rw [hf]
      apply skipBlank_cons
      have := digitChar_facts d hd
      tauto

theorem reads_object : ReadsBack (jsonObject jsonInt) (scanObject scanInt) where
  reads := fun v c r _ => scanObject_written reads_int v (c :: r)
  front := fun v r => skipBlank_cons '{' _ (by decide)

theorem jsonLoads_written (d : List (Str × List (Str × Int))) : jsonLoads (jsonObject (jsonObject jsonInt) d) = .ok d := by
  have h := scanObject_written reads_object d []
  rw [List.append_nil] at h
  unfold jsonLoads
  rw [show skipBlank (jsonObject (jsonObject jsonInt) d) = jsonObject (jsonObject jsonInt) d from
    skipBlank_cons '{' _ (by decide), h]
  rfl

theorem dictStat_statDict (s : MeanStat) : dictStat (statDict s) = some s := by
  have h1 : lastValue "sum".toList (statDict s) = some s.sum := by
    unfold lastValue statDict
    simp only [List.reverse_cons, List.reverse_nil, List.nil_append, List.cons_append, List.lookup_cons]
    rw [show ("sum".toList == "n_elem".toList) = false by decide]
    simp
  have h2 : lastValue "n_elem".toList (statDict s) = some (s.nElem : Int) := by
    unfold lastValue statDict
    simp only [List.reverse_cons, List.reverse_nil, List.nil_append, List.cons_append, List.lookup_cons]
    simp
  unfold dictStat
  rw [h1, h2]
  simp

theorem dictModel_written (m : MeanModel) : ∀ acc : MeanModel, ((acc ++ m).map Prod.fst).Nodup →
    dictModel acc (m.map (fun e => (e.1.toList, statDict e.2))) = .ok (acc ++ m) := by
  induction m with
  | nil => intro acc _; simp [dictModel]
  | cons e m ih =>
    intro acc hn
    rw [List.map_cons]
    unfold dictModel
    rw [dictStat_statDict]
    simp only
    have hnew : acc.set (String.ofList e.1.toList) e.2 = acc ++ [e] := by
      unfold MeanModel.set
      rw [if_neg]
      · simp
      · rw [List.any_eq_true]
        rintro ⟨x, hx, hxe⟩
        simp only [String.ofList_toList, beq_iff_eq] at hxe
        rw [List.map_append, List.map_cons, List.nodup_append] at hn
        exact hn.2.2 x.1 (List.mem_map_of_mem hx) e.1 (by simp) hxe
    rw [hnew, ih (acc ++ [e]) (by simpa using hn)]
    simp

/-- What is written is read back: every model with distinct names, whatever characters they contain. -/
theorem C98_roundtrip (m : MeanModel) (h : (m.map Prod.fst).Nodup) : meanLoads (meanDumps m) = .ok m := by
  unfold meanLoads meanDumps
  rw [jsonLoads_written]
  exact dictModel_written m [] (by simpa using h)

/-! ### A text that was cut off -/

theorem hexFour_more (cs r q : Str) (n : Nat) (h : hexFour cs = some (n, r)) : hexFour (cs ++ q) = some (n, r ++ q) := by
  unfold hexFour at h
  split at h
  · rename_i a b c d rest
    split at h
    · rename_i h1 h2 h3 h4
      simp only [Option.some.injEq, Prod.mk.injEq] at h
      obtain ⟨rfl, rfl⟩ := h
      simp only [List.cons_append, hexFour, h1, h2, h3, h4]
    · cases h
  · cases h

theorem lowSurrogate_more (cs r q : Str) (n : Nat) (h : lowSurrogate cs = some (n, r)) :
    lowSurrogate (cs ++ q) = some (n, r ++ q) := by
  unfold lowSurrogate at h
  split at h
  · rename_i rest
    split at h
    · rename_i k rest' hk
      split at h
      · rename_i hc
        simp only [Option.some.injEq, Prod.mk.injEq] at h
        obtain ⟨rfl, rfl⟩ := h
        simp only [List.cons_append, lowSurrogate, hexFour_more _ _ q _ hk, if_pos hc]
      · cases h
    · cases h
  · cases h

theorem escapedUnit_more (cs r q : Str) (x : Char) (h : escapedUnit cs = some (x, r)) :
    escapedUnit (cs ++ q) = some (x, r ++ q) := by
  unfold escapedUnit at h ⊢
  cases hf : hexFour cs with
  | none => rw [hf] at h; cases h
  | some p =>
    obtain ⟨n, rest⟩ := p
    rw [hf] at h
    rw [hexFour_more _ _ q _ hf]
    simp only at h ⊢
    split at h
    · rename_i hc
      rw [if_pos hc]
      cases hl : lowSurrogate rest with
      | none => rw [hl] at h; cases h
      | some p =>
        obtain ⟨m, rest'⟩ := p
        rw [hl] at h
        rw [lowSurrogate_more _ _ q _ hl]
        simp only [Option.some.injEq, Prod.mk.injEq] at h ⊢
        exact ⟨h.1, by rw [h.2]⟩
    · rename_i hc
      rw [if_neg hc]
      split at h
      · cases h
      · rename_i hc'
        rw [if_neg hc']
        simp only [Option.some.injEq, Prod.mk.injEq] at h ⊢
        exact ⟨h.1, by rw [h.2]⟩

theorem afterBackslash_more (cs r q : Str) (x : Char) (h : afterBackslash cs = some (x, r)) :
    afterBackslash (cs ++ q) = some (x, r ++ q) := by
  unfold afterBackslash at h
  split at h
  all_goals first
    | (simp only [Option.some.injEq, Prod.mk.injEq] at h; obtain ⟨rfl, rfl⟩ := h; rfl)
    | exact escapedUnit_more _ _ q _ h
    | cases h

theorem scanString_more (q : Str) : ∀ (fuel fuel' : Nat) (cs s r : Str), fuel ≤ fuel' → scanString fuel cs = some (s, r) →
    scanString fuel' (cs ++ q) = some (s, r ++ q) := by
  intro fuel
  induction fuel with
  | zero => intro fuel' cs s r _ h; cases h
  | succ fuel ih =>
    intro fuel' cs s r hf h
    cases cs with
    | nil => cases h
    | cons c cs =>
      cases fuel' with
      | zero => omega
      | succ fuel' =>
        have hf' : fuel ≤ fuel' := by omega
        rw [List.cons_append]
        rw [scanString] at h ⊢
        split at h
        · rename_i hc
          rw [if_pos hc]
          simp only [Option.some.injEq, Prod.mk.injEq] at h ⊢
          exact ⟨h.1, by rw [h.2]⟩
        · rename_i hc
          rw [if_neg hc]
          split at h
          · rename_i hb
            rw [if_pos hb]
            cases ha : afterBackslash cs with
            | none => rw [ha] at h; cases h
            | some p =>
              obtain ⟨x, rest⟩ := p
              rw [ha] at h
              rw [afterBackslash_more _ _ q _ ha]
              simp only [Option.map_eq_some_iff] at h ⊢
              obtain ⟨p, h1, h2⟩ := h
              refine ⟨(p.1, p.2 ++ q), ih fuel' rest p.1 p.2 hf' h1, ?_⟩
              simp only [Prod.mk.injEq] at h2 ⊢
              exact ⟨h2.1, by rw [h2.2]⟩
          · rename_i hb
            rw [if_neg hb]
            split at h
            · cases h
            · rename_i ht
              rw [if_neg ht]
              simp only [Option.map_eq_some_iff] at h ⊢
              obtain ⟨p, h1, h2⟩ := h
              refine ⟨(p.1, p.2 ++ q), ih fuel' cs p.1 p.2 hf' h1, ?_⟩
              simp only [Prod.mk.injEq] at h2 ⊢
              exact ⟨h2.1, by rw [h2.2]⟩

theorem skipBlank_more (cs q : Str) (h : skipBlank cs ≠ []) : skipBlank (cs ++ q) = skipBlank cs ++ q := by
  induction cs with
  | nil => exact absurd rfl h
  | cons c cs ih =>
    rw [List.cons_append]
    unfold skipBlank at h ⊢
    split
    · rename_i hc
      rw [if_pos hc] at h
      rw [show skipBlank cs = skipBlank cs from rfl]
      exact ih h
    · rfl

theorem scanDigits_more (q : Str) : ∀ (cs : Str) (acc : Nat), (scanDigits acc cs).2 ≠ [] →
    scanDigits acc (cs ++ q) = ((scanDigits acc cs).1, (scanDigits acc cs).2 ++ q) := by
  intro cs
  induction cs with
  | nil => intro acc h; exact absurd rfl h
  | cons c cs ih =>
    intro acc h
    rw [List.cons_append]
    rw [scanDigits] at h ⊢
    rw [scanDigits]
    cases hd : digitVal c with
    | none => rfl
    | some d =>
      rw [hd] at h
      exact ih _ h

theorem scanNat_more (q cs r : Str) (n : Nat) (h : scanNat cs = some (n, r)) (hr : r ≠ []) :
    scanNat (cs ++ q) = some (n, r ++ q) := by
  cases cs with
  | nil => cases h
  | cons c cs =>
    rw [List.cons_append]
    unfold scanNat at h ⊢
    simp only at h ⊢
    cases hd : digitVal c with
    | none => rw [hd] at h; cases h
    | some d =>
      rw [hd] at h
      simp only at h ⊢
      split at h
      · rename_i hz
        rw [if_pos hz]
        simp only [Option.some.injEq, Prod.mk.injEq] at h ⊢
        exact ⟨h.1, by rw [h.2]⟩
      · rename_i hz
        rw [if_neg hz]
        have h' := Option.some.inj h
        rw [scanDigits_more q cs d (by rw [h']; exact hr), h']

/-- Reading a value does not depend on what follows, provided something was left over. -/
structure Stable {α : Type} (value : Str → Option (α × Str)) : Prop where
  more : ∀ (q cs r : Str) (v : α), value cs = some (v, r) → r ≠ [] → value (cs ++ q) = some (v, r ++ q)
  nothing : value [] = none

theorem scanSigned_stable : Stable scanSigned := by
  refine ⟨?_, rfl⟩
  intro q cs r n h hr
  cases cs with
  | nil => cases h
  | cons c cs =>
    rw [List.cons_append]
    unfold scanSigned at h ⊢
    simp only at h ⊢
    split at h
    · rename_i hc
      rw [if_pos hc]
      simp only [Option.map_eq_some_iff] at h ⊢
      obtain ⟨p, h1, h2⟩ := h
      simp only [Prod.mk.injEq] at h2
      refine ⟨(p.1, p.2 ++ q), scanNat_more q cs p.2 p.1 h1 (by rw [h2.2]; exact hr), ?_⟩
      simp only [Prod.mk.injEq]
      exact ⟨h2.1, by rw [h2.2]⟩
    · rename_i hc
      rw [if_neg hc]
      simp only [Option.map_eq_some_iff] at h ⊢
      obtain ⟨p, h1, h2⟩ := h
      simp only [Prod.mk.injEq] at h2
      refine ⟨(p.1, p.2 ++ q), scanNat_more q (c :: cs) p.2 p.1 h1 (by rw [h2.2]; exact hr), ?_⟩
      simp only [Prod.mk.injEq]
      exact ⟨h2.1, by rw [h2.2]⟩

theorem scanInt_stable : Stable scanInt := by
  refine ⟨?_, rfl⟩
  intro q cs r n h hr
  unfold scanInt at h ⊢
  cases hs : scanSigned cs with
  | none => rw [hs] at h; cases h
  | some p =>
    obtain ⟨k, rest⟩ := p
    rw [hs] at h
    simp only at h
    split at h
    · cases h
    · rename_i hc
      simp only [Option.some.injEq, Prod.mk.injEq] at h
      obtain ⟨rfl, rfl⟩ := h
      rw [scanSigned_stable.more q cs rest k hs hr]
      simp only
      rw [if_neg]
      cases rest with
      | nil => exact absurd rfl hr
      | cons x rest => exact hc

theorem scanItems_more {α : Type} {value : Str → Option (α × Str)} (hv : Stable value) (q : Str) :
    ∀ (fuel fuel' : Nat) (cs r : Str) (d : List (Str × α)), fuel ≤ fuel' → scanItems value fuel cs = some (d, r) →
    scanItems value fuel' (cs ++ q) = some (d, r ++ q) := by
  intro fuel
  induction fuel with
  | zero => intro fuel' cs r d _ h; cases h
  | succ fuel ih =>
    intro fuel' cs r d hf h
    cases fuel' with
    | zero => omega
    | succ fuel' =>
      have hf' : fuel ≤ fuel' := by omega
      unfold scanItems at h
      split at h
      · rename_i r0
        rw [List.cons_append]
        unfold scanItems
        cases hs : scanString (r0.length + 1) r0 with
        | none => rw [hs] at h; cases h
        | some p =>
          obtain ⟨k, r1⟩ := p
          rw [hs] at h
          simp only at h
          simp only
          rw [scanString_more q (r0.length + 1) ((r0 ++ q).length + 1) r0 k r1 (by simp) hs]
          simp only
          split at h
          · rename_i r2 hr2
            rw [skipBlank_more r1 q (by rw [hr2]; simp), hr2]
            simp only [List.cons_append]
            cases hval : value (skipBlank r2) with
            | none => rw [hval] at h; cases h
            | some p =>
              obtain ⟨v, r3⟩ := p
              rw [hval] at h
              simp only at h
              have h3 : skipBlank r3 ≠ [] := by
                intro hz
                rw [hz] at h
                cases h
              have h3' : r3 ≠ [] := by
                intro hz
                rw [hz] at h3
                exact h3 rfl
              have h2 : skipBlank r2 ≠ [] := by
                intro hz
                rw [hz, hv.nothing] at hval
                cases hval
              rw [skipBlank_more r2 q h2, hv.more q _ r3 v hval h3']
              simp only
              rw [skipBlank_more r3 q h3]
              split at h
              · rename_i r4 hr4
                rw [hr4]
                simp only [List.cons_append, Option.some.injEq, Prod.mk.injEq] at h ⊢
                exact ⟨h.1, by rw [h.2]⟩
              · rename_i r4 hr4
                rw [hr4]
                simp only [List.cons_append, Option.map_eq_some_iff] at h ⊢
                obtain ⟨p, g1, g2⟩ := h
                simp only [Prod.mk.injEq] at g2
                have h4 : skipBlank r4 ≠ [] := by
                  intro hz
                  rw [hz] at g1
                  cases fuel <;> cases g1
                rw [skipBlank_more r4 q h4]
                refine ⟨(p.1, p.2 ++ q), ih fuel' _ p.2 p.1 hf' g1, ?_⟩
                simp only [Prod.mk.injEq]
                exact ⟨g2.1, by rw [g2.2]⟩
              · cases h
          · cases h
      · cases h

theorem scanObject_more {α : Type} {value : Str → Option (α × Str)} (hv : Stable value) (q cs r : Str) (d : List (Str × α))
    (h : scanObject value cs = some (d, r)) : scanObject value (cs ++ q) = some (d, r ++ q) := by
  unfold scanObject at h
  split at h
  · rename_i r0
    rw [List.cons_append]
    unfold scanObject
    simp only
    have h0 : skipBlank r0 ≠ [] := by
      intro hz
      rw [hz] at h
      cases h
    rw [skipBlank_more r0 q h0]
    split at h
    · rename_i r1 hr1
      rw [hr1]
      simp only [List.cons_append, Option.some.injEq, Prod.mk.injEq] at h ⊢
      exact ⟨h.1, by rw [h.2]⟩
    · rename_i hne
      have hm := scanItems_more hv q _ ((skipBlank r0 ++ q).length + 1) _ r d (by simp) h
      split
      · rename_i r1 hr1
        cases hsk : skipBlank r0 with
        | nil => exact absurd hsk h0
        | cons x xs =>
          rw [hsk, List.cons_append] at hr1
          have hx := (List.cons.inj hr1).1
          exact absurd (by rw [hsk, hx]) (hne xs)
      · exact hm
  · cases h

theorem scanObject_stable {α : Type} {value : Str → Option (α × Str)} (hv : Stable value) : Stable (scanObject value) :=
  ⟨fun q cs r v h _ => scanObject_more hv q cs r v h, rfl⟩

/-- A file that was cut off, by a full disk or by an interruption, is never taken for a model: every proper beginning of a written
text is refused with `ValueError`. -/
theorem C98_truncated (m : MeanModel) (p q : Str) (h : meanDumps m = p ++ q) (hq : q ≠ []) :
    meanLoads p = .error .valueError := by
  have hp : skipBlank p = p := by
    cases p with
    | nil => rfl
    | cons c p =>
      have hc : c = '{' := by
        unfold meanDumps jsonObject at h
        rw [List.cons_append] at h
        exact (List.cons.inj h).1.symm
      rw [hc]
      exact skipBlank_cons '{' _ (by decide)
  unfold meanLoads jsonLoads
  rw [hp]
  cases hs : scanObject (scanObject scanInt) p with
  | none => rfl
  | some x =>
    exfalso
    obtain ⟨d, r⟩ := x
    have h1 := scanObject_more (scanObject_stable scanInt_stable) q p r d hs
    rw [← h] at h1
    have h2 := scanObject_written reads_object (m.map (fun e => (e.1.toList, statDict e.2))) []
    rw [List.append_nil] at h2
    rw [show jsonObject (jsonObject jsonInt) (m.map (fun e => (e.1.toList, statDict e.2))) = meanDumps m from rfl, h1] at h2
    simp only [Option.some.injEq, Prod.mk.injEq, List.append_eq_nil_iff] at h2
    exact hq h2.2.2

/-- A file with anything but white space after the text of a model, such as the rest of a longer one, is refused as well. -/
theorem C98_trailing (m : MeanModel) (t : Str) (h : ∃ c ∈ t, c ≠ ' ' ∧ c ≠ '\t' ∧ c ≠ '\n' ∧ c ≠ '\r') :
    meanLoads (meanDumps m ++ t) = .error .valueError := by
  have hne : skipBlank t ≠ [] := by
    obtain ⟨c, hc, hb⟩ := h
    induction t with
    | nil => cases hc
    | cons x t ih =>
      unfold skipBlank
      split
      · rename_i hx
        rcases List.mem_cons.1 hc with rfl | hc
        · tauto
        · exact ih hc
      · simp
  have h2 := scanObject_written reads_object (m.map (fun e => (e.1.toList, statDict e.2))) t
  unfold meanLoads jsonLoads
  rw [show skipBlank (meanDumps m ++ t) = jsonObject (jsonObject jsonInt) (m.map (fun e => (e.1.toList, statDict e.2))) ++ t from
    skipBlank_cons '{' _ (by decide), h2]
  simp only
  rw [if_neg hne]

/-! ### What the text looks like -/

/-- A name that needs no escapes. -/
def PlainName (s : String) : Prop := ∀ c ∈ s.toList, 32 ≤ c.toNat ∧ c.toNat ≤ 126 ∧ c ≠ '"' ∧ c ≠ '\\'

/-- A decimal integer. -/
def decimalInt (n : Int) : Str := if 0 ≤ n then formatNat n.toNat else '-' :: formatNat (-n).toNat

/-- The entry of one appliance in the file. -/
def fileEntry (e : String × MeanStat) : Str :=
  "\"".toList ++ e.1.toList ++ "\": {\"sum\": ".toList ++ decimalInt e.2.sum ++ ", \"n_elem\": ".toList ++ formatNat e.2.nElem ++
    "}".toList

theorem plain_escape (s : Str) (h : ∀ c ∈ s, 32 ≤ c.toNat ∧ c.toNat ≤ 126 ∧ c ≠ '"' ∧ c ≠ '\\') : s.flatMap jsonEscape = s := by
  induction s with
  | nil => rfl
  | cons c s ih =>
    obtain ⟨h1, h2, h3, h4⟩ := h c List.mem_cons_self
    have ht : ∀ x : Char, x.toNat < 32 → c ≠ x := by
      intro x hx hc
      rw [hc] at h1
      omega
    rw [List.flatMap_cons, ih (fun x hx => h x (List.mem_cons_of_mem _ hx))]
    unfold jsonEscape
    rw [if_neg h3, if_neg h4, if_neg (ht _ (by decide)), if_neg (ht _ (by decide)), if_neg (ht _ (by decide)),
      if_neg (ht _ (by decide)), if_neg (ht _ (by decide)), if_pos ⟨h1, h2⟩]
    rfl

theorem jsonInt_decimal (n : Int) : jsonInt n = decimalInt n := by
  unfold jsonInt decimalInt
  by_cases h : n < 0
  · rw [if_pos h, if_neg (by omega)]
    congr 2
    omega
  · rw [if_neg h, if_pos (by omega)]
    congr 1
    omega

theorem statDict_text (s : MeanStat) : jsonObject jsonInt (statDict s) =
    "{\"sum\": ".toList ++ decimalInt s.sum ++ ", \"n_elem\": ".toList ++ formatNat s.nElem ++ "}".toList := by
  have h1 : jsonString "sum".toList = "\"sum\"".toList := by decide +kernel
  have h2 : jsonString "n_elem".toList = "\"n_elem\"".toList := by decide +kernel
  have h3 : "{\"sum\": ".toList = '{' :: ("\"sum\"".toList ++ [':', ' ']) := by decide +kernel
  have h4 : ", \"n_elem\": ".toList = [',', ' '] ++ "\"n_elem\"".toList ++ [':', ' '] := by decide +kernel
  have h5 : "}".toList = ['}'] := by decide +kernel
  have h6 : decimalInt (s.nElem : Int) = formatNat s.nElem := by
    unfold decimalInt
    rw [if_pos (by omega)]
    rfl
  unfold jsonObject statDict
  simp only [jsonItems, jsonInt_decimal, h6]
  rw [h1, h2, h3, h4, h5]
  simp only [List.append_assoc, List.cons_append, List.nil_append]

theorem entry_text (e : String × MeanStat) (h : PlainName e.1) :
    jsonString e.1.toList ++ (':' :: ' ' :: jsonObject jsonInt (statDict e.2)) = fileEntry e := by
  have h1 : "\"".toList = ['"'] := by decide +kernel
  have h2 : "\": {\"sum\": ".toList = '"' :: ':' :: ' ' :: "{\"sum\": ".toList := by decide +kernel
  unfold jsonString fileEntry
  rw [plain_escape _ h, statDict_text, h1, h2]
  simp only [List.append_assoc, List.cons_append, List.nil_append]

theorem items_text (m : MeanModel) (h : ∀ e ∈ m, PlainName e.1) :
    jsonItems (jsonObject jsonInt) (m.map (fun e => (e.1.toList, statDict e.2))) =
      [',', ' '].intercalate (m.map fileEntry) := by
  induction m with
  | nil => rfl
  | cons e m ih =>
    have he := entry_text e (h e List.mem_cons_self)
    cases m with
    | nil =>
      simp only [List.map_cons, List.map_nil, jsonItems]
      rw [he]
      simp [List.intercalate]
    | cons e' m' =>
      have ih' := ih (fun x hx => h x (List.mem_cons_of_mem _ hx))
      simp only [List.map_cons] at ih' ⊢
      rw [jsonItems, ih', he]
      · simp [List.intercalate]
      · simp

/-- The file in full, for names without characters that need escapes. -/
theorem C98_text (m : MeanModel) (h : ∀ e ∈ m, PlainName e.1) :
    meanDumps m = '{' :: ([',', ' '].intercalate (m.map fileEntry) ++ ['}']) := by
  show '{' :: (jsonItems (jsonObject jsonInt) (m.map (fun e => (e.1.toList, statDict e.2))) ++ ['}']) = _
  rw [items_text m h]

/-- Printable ASCII. -/
def Printable (c : Char) : Prop := 32 ≤ c.toNat ∧ c.toNat ≤ 126

theorem hexDigit_printable : ∀ d < 16, Printable (hexDigit d) := by
  unfold Printable
  decide

theorem digitChar_printable : ∀ d < 10, Printable (digitChar d) := by
  unfold Printable
  decide

theorem formatNat_printable (n : Nat) : ∀ c ∈ formatNat n, Printable c := by
  intro c hc
  obtain ⟨d, hd, rfl⟩ := formatNat_digits n c hc
  exact digitChar_printable d hd

theorem hexEscape_printable (n : Nat) : ∀ c ∈ hexEscape n, Printable c := by
  intro c hc
  unfold hexEscape at hc
  simp only [List.mem_cons, List.not_mem_nil, or_false] at hc
  rcases hc with rfl | rfl | rfl | rfl | rfl | rfl
  · unfold Printable; decide
  · unfold Printable; decide
  all_goals exact hexDigit_printable _ (Nat.mod_lt _ (by decide))

theorem jsonEscape_printable (x : Char) : ∀ c ∈ jsonEscape x, Printable c := by
  intro c hc
  have two : ∀ a b : Char, Printable a → Printable b → c ∈ [a, b] → Printable c := by
    intro a b ha hb hm
    simp only [List.mem_cons, List.not_mem_nil, or_false] at hm
    rcases hm with rfl | rfl
    · exact ha
    · exact hb
  unfold jsonEscape at hc
  split at hc
  · exact two _ _ (by unfold Printable; decide) (by unfold Printable; decide) hc
  split at hc
  · exact two _ _ (by unfold Printable; decide) (by unfold Printable; decide) hc
  split at hc
  · exact two _ _ (by unfold Printable; decide) (by unfold Printable; decide) hc
  split at hc
  · exact two _ _ (by unfold Printable; decide) (by unfold Printable; decide) hc
  split at hc
  · exact two _ _ (by unfold Printable; decide) (by unfold Printable; decide) hc
  split at hc
  · exact two _ _ (by unfold Printable; decide) (by unfold Printable; decide) hc
  split at hc
  · exact two _ _ (by unfold Printable; decide) (by unfold Printable; decide) hc
  split at hc
  · rename_i h
    rw [List.mem_singleton] at hc
    rw [hc]
    exact h
  split at hc
  · exact hexEscape_printable _ c hc
  · rcases List.mem_append.1 hc with hc | hc
    · exact hexEscape_printable _ c hc
    · exact hexEscape_printable _ c hc

theorem jsonString_printable (s : Str) : ∀ c ∈ jsonString s, Printable c := by
  intro c hc
  unfold jsonString at hc
  rcases List.mem_cons.1 hc with rfl | hc
  · unfold Printable; decide
  rcases List.mem_append.1 hc with hc | hc
  · obtain ⟨x, _, hx⟩ := List.mem_flatMap.1 hc
    exact jsonEscape_printable x c hx
  · rw [List.mem_singleton] at hc
    rw [hc]
    unfold Printable; decide

theorem jsonItems_printable {α : Type} (enc : α → Str) (henc : ∀ v, ∀ c ∈ enc v, Printable c) (d : List (Str × α)) :
    ∀ c ∈ jsonItems enc d, Printable c := by
  induction d with
  | nil => intro c hc; cases hc
  | cons e d ih =>
    obtain ⟨k, v⟩ := e
    have hone : ∀ c ∈ jsonString k ++ (':' :: ' ' :: enc v), Printable c := by
      intro c hc
      rcases List.mem_append.1 hc with hc | hc
      · exact jsonString_printable k c hc
      rcases List.mem_cons.1 hc with rfl | hc
      · unfold Printable; decide
      rcases List.mem_cons.1 hc with rfl | hc
      · unfold Printable; decide
      · exact henc v c hc
    cases d with
    | nil => exact hone
    | cons e' d' =>
      intro c hc
      rw [jsonItems] at hc
      · rcases List.mem_append.1 hc with hc | hc
        · exact hone c hc
        rcases List.mem_cons.1 hc with rfl | hc
        · unfold Printable; decide
        rcases List.mem_cons.1 hc with rfl | hc
        · unfold Printable; decide
        · exact ih c hc
      · simp

theorem jsonObject_printable {α : Type} (enc : α → Str) (henc : ∀ v, ∀ c ∈ enc v, Printable c) (d : List (Str × α)) :
    ∀ c ∈ jsonObject enc d, Printable c := by
  intro c hc
  unfold jsonObject at hc
  rcases List.mem_cons.1 hc with rfl | hc
  · unfold Printable; decide
  rcases List.mem_append.1 hc with hc | hc
  · exact jsonItems_printable enc henc d c hc
  · rw [List.mem_singleton] at hc
    rw [hc]
    unfold Printable; decide

/-- The file has printable ASCII characters only, so its encoding and line ends do not matter. -/
theorem C98_ascii (m : MeanModel) : ∀ c ∈ meanDumps m, Printable c := by
  apply jsonObject_printable
  apply jsonObject_printable
  intro n c hc
  unfold jsonInt at hc
  split at hc
  · rcases List.mem_cons.1 hc with rfl | hc
    · unfold Printable; decide
    · exact formatNat_printable _ c hc
  · exact formatNat_printable _ c hc

/-! ### Training, saving and loading -/

theorem fitLoop_ok (call : MeanCall) : ∀ m m' : MeanModel, meanFit m call = .ok m' → meanFitLoop m call = (m', none) := by
  induction call with
  | nil => intro m m' h; cases h; rfl
  | cons e rest ih =>
    obtain ⟨name, frames⟩ := e
    intro m m' h
    unfold meanFit at h
    unfold meanFitLoop
    cases hone : meanFitOne m name frames with
    | error err => rw [hone] at h; cases h
    | ok m1 =>
      rw [hone] at h
      exact ih m1 m' h

theorem fitOne_nodup (m m' : MeanModel) (name : String) (frames : List (List (Option Rat)))
    (h : meanFitOne m name frames = .ok m') (hn : (m.map Prod.fst).Nodup) : (m'.map Prod.fst).Nodup := by
  unfold meanFitOne at h
  split at h
  · cases h
  · cases h
    rw [set_keys]
    split
    · exact hn
    · rename_i hk
      rw [List.nodup_append]
      refine ⟨hn, by simp, ?_⟩
      intro a ha b hb hab
      rw [List.mem_singleton.1 hb] at hab
      exact hk (hab ▸ ha)

theorem fit_nodup (call : MeanCall) : ∀ m m' : MeanModel, meanFit m call = .ok m' → (m.map Prod.fst).Nodup →
    (m'.map Prod.fst).Nodup := by
  induction call with
  | nil => intro m m' h hn; cases h; exact hn
  | cons e rest ih =>
    obtain ⟨name, frames⟩ := e
    intro m m' h hn
    unfold meanFit at h
    cases hone : meanFitOne m name frames with
    | error err => rw [hone] at h; cases h
    | ok m1 =>
      rw [hone] at h
      exact ih m1 m' h (fitOne_nodup m m1 name frames hone hn)

theorem meanFitAll_append (cs1 cs2 : List MeanCall) (m : MeanModel) :
    meanFitAll m (cs1 ++ cs2) = match meanFitAll m cs1 with
      | .error e => .error e
      | .ok m' => meanFitAll m' cs2 := by
  induction cs1 generalizing m with
  | nil => rfl
  | cons c cs1 ih =>
    rw [List.cons_append]
    conv_lhs => unfold meanFitAll
    rw [show meanFitAll m (c :: cs1) = match meanFit m c with
      | .error e => .error e
      | .ok m' => meanFitAll m' cs1 from rfl]
    cases meanFit m c with
    | error e => rfl
    | ok m' => exact ih m'

theorem fitAll_nodup (cs : List MeanCall) : ∀ m m' : MeanModel, meanFitAll m cs = .ok m' → (m.map Prod.fst).Nodup →
    (m'.map Prod.fst).Nodup := by
  induction cs with
  | nil => intro m m' h hn; cases h; exact hn
  | cons c cs ih =>
    intro m m' h hn
    unfold meanFitAll at h
    cases hc : meanFit m c with
    | error e => rw [hc] at h; cases h
    | ok m1 =>
      rw [hc] at h
      exact ih m1 m' h (fit_nodup c m m1 hc hn)

theorem truthyPath_some {p : String} (h : p ≠ "") : truthyPath (some p) = some p := by
  unfold truthyPath
  simp only
  rw [if_neg h]

/-- The file in folder `p` holds the model `m`. -/
def Holds (fs : ModelFiles) (p : String) (m : MeanModel) : Prop := fs.lookup p = some (meanDumps m)

theorem partialFit_ok (o : MeanObj) (c : MeanCall) (fs : ModelFiles) (p : String) (hp : p ≠ "")
    (hs : o.params.savePath = some p) (m : MeanModel) (h : meanFit o.model c = .ok m) :
    (o.partialFit c fs).1 = ⟨m, o.params⟩ ∧ (o.partialFit c fs).2.2 = none ∧ Holds (o.partialFit c fs).2.1 p m ∧
      ∀ f, f ≠ p → (o.partialFit c fs).2.1.lookup f = fs.lookup f := by
  unfold MeanObj.partialFit
  rw [fitLoop_ok c _ _ h, hs, truthyPath_some hp]
  refine ⟨rfl, rfl, ?_, ?_⟩
  · unfold Holds MeanObj.saveModel
    simp only
    rw [dictSet_lookup, if_pos rfl]
  · intro f hf
    unfold MeanObj.saveModel
    simp only
    rw [dictSet_lookup, if_neg hf]

theorem fitAll_ok (p : String) (hp : p ≠ "") (cs : List MeanCall) : ∀ (o : MeanObj) (fs : ModelFiles) (m : MeanModel),
    o.params.savePath = some p → meanFitAll o.model cs = .ok m →
    (o.fitAll cs fs).1 = ⟨m, o.params⟩ ∧ (cs ≠ [] ∨ Holds fs p o.model → Holds (o.fitAll cs fs).2 p m) ∧
      ∀ f, f ≠ p → (o.fitAll cs fs).2.lookup f = fs.lookup f := by
  induction cs with
  | nil =>
    intro o fs m _ h
    cases h
    exact ⟨rfl, fun h => h.resolve_left (by simp), fun f _ => rfl⟩
  | cons c cs ih =>
    intro o fs m hs h
    unfold meanFitAll at h
    cases hc : meanFit o.model c with
    | error e => rw [hc] at h; cases h
    | ok m1 =>
      rw [hc] at h
      obtain ⟨h1, _, h3, h4⟩ := partialFit_ok o c fs p hp hs m1 hc
      have ho : (o.partialFit c fs).1.params.savePath = some p := by rw [h1]; exact hs
      have hm : meanFitAll (o.partialFit c fs).1.model cs = .ok m := by rw [h1]; exact h
      obtain ⟨k1, k2, k3⟩ := ih (o.partialFit c fs).1 (o.partialFit c fs).2.1 m ho hm
      unfold MeanObj.fitAll
      refine ⟨by rw [k1, h1], fun _ => k2 (Or.inr (by rw [h1]; exact h3)), ?_⟩
      intro f hf
      rw [k3 f hf, h4 f hf]

theorem init_holds (ps : ModelParams) (p : String) (hp : p ≠ "") (hl : ps.loadPath = some p) (fs : ModelFiles) (m : MeanModel)
    (h : Holds fs p m) (hn : (m.map Prod.fst).Nodup) : meanInit ps fs = .ok ⟨m, ps⟩ := by
  unfold meanInit MeanObj.loadModel
  rw [hl, truthyPath_some hp]
  simp only
  rw [h]
  simp only
  rw [C98_roundtrip m hn]

/-- A call of `partial_fit` that succeeds leaves in the folder a file from which every new object gets the model of the trained
one; the files in other folders are not touched. -/
theorem C98_saved (o : MeanObj) (c : MeanCall) (fs : ModelFiles) (p : String) (hp : p ≠ "")
    (hs : o.params.savePath = some p) (hn : (o.model.map Prod.fst).Nodup) (m : MeanModel) (h : meanFit o.model c = .ok m) :
    (o.partialFit c fs).2.2 = none ∧ (o.partialFit c fs).1 = ⟨m, o.params⟩ ∧
      (∀ ps : ModelParams, ps.loadPath = some p → meanInit ps (o.partialFit c fs).2.1 = .ok ⟨m, ps⟩) ∧
      ∀ f, f ≠ p → (o.partialFit c fs).2.1.lookup f = fs.lookup f := by
  obtain ⟨h1, h2, h3, h4⟩ := partialFit_ok o c fs p hp hs m h
  exact ⟨h2, h1, fun ps hl => init_holds ps p hp hl _ m h3 (fit_nodup c _ _ h hn), h4⟩

/-- Sessions of training one after the other: each begins with a new object that loads the model of the session before and saves
its own, and trains it with its calls. -/
def trainSessions (p : String) : List (List MeanCall) → ModelFiles → Except Err ModelFiles
  | [], fs => .ok fs
  | s :: ss, fs =>
    match meanInit ⟨some p, some p⟩ fs with
    | .error e => .error e
    | .ok o => trainSessions p ss (o.fitAll s fs).2

theorem sessions_hold (p : String) (hp : p ≠ "") (ss : List (List MeanCall)) : ∀ (fs : ModelFiles) (m0 m : MeanModel),
    Holds fs p m0 → (m0.map Prod.fst).Nodup → meanFitAll m0 ss.flatten = .ok m →
    ∃ fs', trainSessions p ss fs = .ok fs' ∧ Holds fs' p m ∧ ∀ f, f ≠ p → fs'.lookup f = fs.lookup f := by
  induction ss with
  | nil =>
    intro fs m0 m hh _ h
    cases h
    exact ⟨fs, rfl, hh, fun _ _ => rfl⟩
  | cons s ss ih =>
    intro fs m0 m hh hn h
    rw [List.flatten_cons, meanFitAll_append] at h
    cases hs : meanFitAll m0 s with
    | error e => rw [hs] at h; cases h
    | ok m1 =>
      rw [hs] at h
      have hi := init_holds ⟨some p, some p⟩ p hp rfl fs m0 hh hn
      obtain ⟨_, k2, k3⟩ := fitAll_ok p hp s ⟨m0, ⟨some p, some p⟩⟩ fs m1 rfl hs
      obtain ⟨fs', g1, g2, g3⟩ := ih _ m1 m (k2 (Or.inr hh)) (fitAll_nodup s _ _ hs hn) h
      refine ⟨fs', ?_, g2, ?_⟩
      · unfold trainSessions
        rw [hi]
        exact g1
      · intro f hf
        rw [g3 f hf, k3 f hf]

/-- Training that is split into any number of sessions, with a new object for each, ends with the same model as training without
interruption, whatever was in the folder before the first session; files in other folders are not touched. -/
theorem C98_resume (p : String) (hp : p ≠ "") (fs : ModelFiles) (first : List MeanCall) (hne : first ≠ [])
    (ss : List (List MeanCall)) (m : MeanModel) (h : meanFitAll [] (first ++ ss.flatten) = .ok m) :
    ∃ o fs', meanInit ⟨some p, none⟩ fs = .ok o ∧ trainSessions p ss (o.fitAll first fs).2 = .ok fs' ∧
      (∀ ps : ModelParams, ps.loadPath = some p → meanInit ps fs' = .ok ⟨m, ps⟩) ∧
      ∀ f, f ≠ p → fs'.lookup f = fs.lookup f := by
  rw [meanFitAll_append] at h
  cases hs : meanFitAll [] first with
  | error e => rw [hs] at h; cases h
  | ok m1 =>
    rw [hs] at h
    obtain ⟨_, k2, k3⟩ := fitAll_ok p hp first ⟨[], ⟨some p, none⟩⟩ fs m1 rfl hs
    have hn1 := fitAll_nodup first _ _ hs (by simp)
    obtain ⟨fs', g1, g2, g3⟩ := sessions_hold p hp ss _ m1 m (k2 (Or.inl hne)) hn1 h
    refine ⟨⟨[], ⟨some p, none⟩⟩, fs', rfl, g1, ?_, ?_⟩
    · intro ps hl
      exact init_holds ps p hp hl fs' m g2 (fitAll_nodup _ _ _ h hn1)
    · intro f hf
      rw [g3 f hf, k3 f hf]

theorem fitLoop_raises (pre : MeanCall) (name : String) (post : MeanCall) : ∀ m m' : MeanModel, meanFit m pre = .ok m' →
    meanFitLoop m (pre ++ (name, []) :: post) = (m', some .valueError) := by
  induction pre with
  | nil => intro m m' h; cases h; rfl
  | cons e rest ih =>
    obtain ⟨n, frames⟩ := e
    intro m m' h
    unfold meanFit at h
    rw [List.cons_append]
    unfold meanFitLoop
    cases hone : meanFitOne m n frames with
    | error err => rw [hone] at h; cases h
    | ok m1 =>
      rw [hone] at h
      exact ih m1 m' h

/-- A call of `partial_fit` that raises, because there is no frame for an appliance, writes no file; the object keeps what it learnt
from the appliances before. -/
theorem C98_raising (o : MeanObj) (pre : MeanCall) (name : String) (post : MeanCall) (fs : ModelFiles)
    (h : ∀ e ∈ pre, e.2 ≠ []) :
    ∃ m, meanFit o.model pre = .ok m ∧
      o.partialFit (pre ++ (name, []) :: post) fs = (⟨m, o.params⟩, fs, some .valueError) := by
  have hok : ∀ (pre : MeanCall) (m : MeanModel), (∀ e ∈ pre, e.2 ≠ []) → ∃ m', meanFit m pre = .ok m' := by
    intro pre
    induction pre with
    | nil => intro m _; exact ⟨m, rfl⟩
    | cons e rest ih =>
      obtain ⟨n, frames⟩ := e
      intro m hall
      unfold meanFit meanFitOne
      rw [if_neg (hall (n, frames) List.mem_cons_self)]
      exact ih _ (fun x hx => hall x (List.mem_cons_of_mem _ hx))
  obtain ⟨m, hm⟩ := hok pre o.model h
  refine ⟨m, hm, ?_⟩
  unfold MeanObj.partialFit
  rw [fitLoop_raises pre name post _ _ hm]

/-- After a call that raised, a new object that loads the file goes on from the last call that succeeded, as if the failed call had
never been made. -/
theorem C98_recover (p : String) (hp : p ≠ "") (o : MeanObj) (fs : ModelFiles) (hs : o.params.savePath = some p)
    (hn : (o.model.map Prod.fst).Nodup) (done : List MeanCall) (hne : done ≠ []) (m : MeanModel)
    (h : meanFitAll o.model done = .ok m) (pre : MeanCall) (name : String) (post : MeanCall) (hpre : ∀ e ∈ pre, e.2 ≠ [])
    (ps : ModelParams) (hl : ps.loadPath = some p) :
    meanInit ps (o.fitAll (done ++ [pre ++ (name, []) :: post]) fs).2 = .ok ⟨m, ps⟩ := by
  have happ : ∀ (cs : List MeanCall) (c : MeanCall) (o : MeanObj) (fs : ModelFiles),
      (o.fitAll (cs ++ [c]) fs).2 = ((o.fitAll cs fs).1.partialFit c (o.fitAll cs fs).2).2.1 := by
    intro cs c
    induction cs with
    | nil => intro o fs; rfl
    | cons c' cs ih =>
      intro o fs
      rw [List.cons_append]
      unfold MeanObj.fitAll
      exact ih _ _
  rw [happ]
  obtain ⟨m', _, hr⟩ := C98_raising (o.fitAll done fs).1 pre name post (o.fitAll done fs).2 hpre
  rw [hr]
  obtain ⟨_, k2, _⟩ := fitAll_ok p hp done o fs m hs h
  exact init_holds ps p hp hl _ m (k2 (Or.inl hne)) (fitAll_nodup done _ _ h hn)

/-- Repeating a call that raised, with the same object and the missing frame supplied, counts the appliances before the failure
twice. -/
theorem C98_retry_counterexample :
    ∃ (bad good : MeanCall) (m : MeanModel), meanFitAll [] [good] = .ok m ∧
      (MeanObj.fitAll ⟨[], ⟨some "out", none⟩⟩ [bad, good] []).1.model ≠ m ∧
      bad.map Prod.fst = good.map Prod.fst ∧ bad.head? = good.head? :=
  ⟨[("fridge", [[some 5]]), ("kettle", [])], [("fridge", [[some 5]]), ("kettle", [[some 7]])],
    [("fridge", ⟨5, 1⟩), ("kettle", ⟨7, 1⟩)], by decide +kernel, by decide +kernel, rfl, rfl⟩

/-- Without a path, or with an empty one, nothing is loaded; a folder without file raises `FileNotFoundError`, and a file that is not
readable `ValueError`. -/
theorem C98_init (s : Option String) (fs : ModelFiles) :
    meanInit ⟨s, none⟩ fs = .ok ⟨[], ⟨s, none⟩⟩ ∧ meanInit ⟨s, some ""⟩ fs = .ok ⟨[], ⟨s, some ""⟩⟩ ∧
      (∀ p, p ≠ "" → fs.lookup p = none → meanInit ⟨s, some p⟩ fs = .error .fileNotFound) ∧
      ∀ (p : String) (m : MeanModel) (a b : Str), p ≠ "" → meanDumps m = a ++ b → b ≠ [] → fs.lookup p = some a →
        meanInit ⟨s, some p⟩ fs = .error .valueError := by
  refine ⟨rfl, rfl, ?_, ?_⟩
  · intro p hp h
    unfold meanInit MeanObj.loadModel
    simp only [truthyPath_some hp, h]
  · intro p m a b hp hd hb h
    unfold meanInit MeanObj.loadModel
    simp only [truthyPath_some hp, h, C98_truncated m a b hd hb]

/-- Without a path to save to, or with an empty one, no file is written, whatever the calls. -/
theorem C98_unsaved (o : MeanObj) (h : o.params.savePath = none ∨ o.params.savePath = some "") (cs : List MeanCall) :
    ∀ fs, (o.fitAll cs fs).2 = fs := by
  induction cs generalizing o with
  | nil => intro fs; rfl
  | cons c cs ih =>
    intro fs
    have hstep : (o.partialFit c fs).2.1 = fs ∧ (o.partialFit c fs).1.params = o.params := by
      unfold MeanObj.partialFit
      have ht : truthyPath o.params.savePath = none := by
        rcases h with h | h
        · rw [h]; rfl
        · rw [h]; rfl
      rw [ht]
      split
      · exact ⟨rfl, rfl⟩
      · exact ⟨rfl, rfl⟩
    unfold MeanObj.fitAll
    rw [ih _ (by rw [hstep.2]; exact h), hstep.1]

/-- The other disaggregators cannot load a model: with a path they raise `NotImplementedError`. -/
theorem C98_others (s : Option String) (p : String) (hp : p ≠ "") :
    otherInit ⟨s, some p⟩ = .error .notImplemented ∧ otherInit ⟨s, none⟩ = .ok ⟨s, none⟩ ∧
      otherInit ⟨s, some ""⟩ = .ok ⟨s, some ""⟩ := by
  refine ⟨?_, rfl, rfl⟩
  unfold otherInit
  simp only [truthyPath_some hp]

/-! ### clear_model_checkpoints -/

/-- A file whose name begins with the prefix and ends with `.h5`. -/
def Checkpoint (pre : Str) (e : DirEntry) : Prop :=
  e.isFile = true ∧ (∃ s, e.name = pre ++ s) ∧ ∃ s, e.name = s ++ ".h5".toList

theorem isCheckpoint_iff (pre : Str) (e : DirEntry) : isCheckpoint pre e = true ↔ Checkpoint pre e := by
  unfold isCheckpoint Checkpoint
  rw [Bool.and_eq_true, Bool.and_eq_true, List.isPrefixOf_iff_prefix, List.isSuffixOf_iff_suffix]
  constructor
  · rintro ⟨⟨h1, ⟨s, h2⟩⟩, ⟨t, h3⟩⟩
    exact ⟨h1, ⟨s, h2.symm⟩, ⟨t, h3.symm⟩⟩
  · rintro ⟨h1, ⟨s, h2⟩, ⟨t, h3⟩⟩
    exact ⟨⟨h1, ⟨s, h2.symm⟩⟩, ⟨t, h3.symm⟩⟩

theorem clearLoop_prefix (pre : Str) (before rest : List DirEntry) (h : ∀ e ∈ before, Checkpoint pre e → e.removable = true) :
    clearLoop pre (before ++ rest) = (before.filter (fun e => !isCheckpoint pre e) ++ (clearLoop pre rest).1, (clearLoop pre rest).2) := by
  induction before with
  | nil => rfl
  | cons e before ih =>
    have ih' := ih (fun x hx => h x (List.mem_cons_of_mem _ hx))
    rw [List.cons_append]
    conv_lhs => unfold clearLoop
    by_cases hc : isCheckpoint pre e = true
    · rw [if_pos hc, if_pos (h e List.mem_cons_self ((isCheckpoint_iff pre e).1 hc)), ih']
      rw [List.filter_cons_of_neg (by simp [hc])]
    · rw [if_neg hc, ih', List.filter_cons_of_pos (by simp [hc])]
      rfl

/-- `clear_model_checkpoints` removes exactly the files whose names begin with the prefix and end with `.h5`, up to the first that
cannot be removed; everything else stays, in the same order, and without a prefix nothing is removed. -/
theorem C98_clear (dir : List DirEntry) (pre : Str) :
    clearModelCheckpoints none dir = (dir, false) ∧
    ((∀ e ∈ dir, Checkpoint pre e → e.removable = true) →
      ∃ left, clearModelCheckpoints (some pre) dir = (left, false) ∧ left.Sublist dir ∧
        ∀ e, e ∈ left ↔ e ∈ dir ∧ ¬ Checkpoint pre e) ∧
    ∀ before e after, dir = before ++ e :: after → Checkpoint pre e → e.removable = false →
      (∀ x ∈ before, Checkpoint pre x → x.removable = true) →
      ∃ left, clearModelCheckpoints (some pre) dir = (left ++ e :: after, true) ∧ left.Sublist before ∧
        ∀ x, x ∈ left ↔ x ∈ before ∧ ¬ Checkpoint pre x := by
  have hmem : ∀ (l : List DirEntry) (e : DirEntry), e ∈ l.filter (fun e => !isCheckpoint pre e) ↔ e ∈ l ∧ ¬ Checkpoint pre e := by
    intro l e
    rw [List.mem_filter, ← isCheckpoint_iff]
    simp
  refine ⟨rfl, ?_, ?_⟩
  · intro h
    have := clearLoop_prefix pre dir [] h
    rw [List.append_nil] at this
    refine ⟨dir.filter (fun e => !isCheckpoint pre e), ?_, List.filter_sublist, hmem dir⟩
    show clearLoop pre dir = _
    rw [this]
    simp [clearLoop]
  · rintro before e after rfl hc hr h
    refine ⟨before.filter (fun e => !isCheckpoint pre e), ?_, List.filter_sublist, hmem before⟩
    show clearLoop pre (before ++ e :: after) = _
    rw [clearLoop_prefix pre before _ h]
    have : clearLoop pre (e :: after) = (e :: after, true) := by
      unfold clearLoop
      rw [if_pos ((isCheckpoint_iff pre e).2 hc), if_neg (by rw [hr]; decide)]
    rw [this]

/-! ### Examples -/

/-- Two appliances, one with a name that needs escapes. -/
def demoMeanModel : MeanModel := [("fridge", ⟨-12, 3⟩), ("Gef\u00fcllt \"A\" \n😀", ⟨70, 10⟩)]

example : (demoMeanModel.map Prod.fst).Nodup := by decide +kernel

example : meanDumps demoMeanModel =
    "{\"fridge\": {\"sum\": -12, \"n_elem\": 3}, \"Gef\\u00fcllt \\\"A\\\" \\n\\ud83d\\ude00\": {\"sum\": 70, \"n_elem\": 10}}".toList := by
  decide +kernel

example : meanFitAll [] ([[("fridge", [[some 5, none], [some 7]])]] ++
    [[[("fridge", [[some 1]])], [("kettle", [[some 2000]])]], [], [[("fridge", [[]])]]].flatten) =
      .ok [("fridge", ⟨13, 4⟩), ("kettle", ⟨2000, 1⟩)] := by decide +kernel

example : Checkpoint "seq".toList ⟨"seq-temp-1.h5".toList, true, true⟩ :=
  ⟨rfl, ⟨"-temp-1.h5".toList, by decide⟩, ⟨"seq-temp-1".toList, by decide⟩⟩

end Nilmtk
