/-
Properties C94 (masks), C95 (command line options), C96 (names of scopes).
-/
import Verif.Model.BaseTools

namespace Verif.Props

open Verif Verif.BaseTools

/-! ### C94 -/

theorem shifted_eq {N : Int} (h1 : 1 ≤ N) (h2 : N ≤ 32) : shifted N = some (BitVec.twoPow 32 (N - 1).toNat) := by
  unfold shifted
  rw [if_pos ⟨h1, h2⟩]
  rfl

theorem mask_bits : ∀ (l : List Int), l ≠ [] → (∀ N ∈ l, 1 ≤ N ∧ N ≤ 32) →
    ∃ v, mask l = some v ∧ ∀ i, i < 32 → v.getLsbD i = decide (((i : Int) + 1) ∈ l)
  | [], h, _ => absurd rfl h
  | [N], _, hb => by
    have hN := hb N (by simp)
    refine ⟨BitVec.twoPow 32 (N - 1).toNat, ?_, fun i hi => ?_⟩
    · rw [mask, if_neg (by omega), shifted_eq hN.1 hN.2]
    · rw [BitVec.getLsbD_twoPow]
      by_cases h : (i : Int) + 1 = N
      · have e : (N - 1).toNat = i := by omega
        rw [e]
        simp [hi, h]
      · have e : (N - 1).toNat ≠ i := by omega
        simp only [List.mem_cons, h, e, decide_false, Bool.and_false, false_or, List.not_mem_nil]
  | N :: M :: l, _, hb => by
    obtain ⟨v, hv, hbits⟩ := mask_bits (M :: l) (by simp) (fun x hx => hb x (by simp [hx]))
    have hN := hb N (by simp)
    refine ⟨BitVec.twoPow 32 (N - 1).toNat ||| v, ?_, fun i hi => ?_⟩
    · rw [mask, shifted_eq hN.1 hN.2, hv]
      · rfl
      · intro h; simp at h
    · rw [BitVec.getLsbD_or, hbits i hi, BitVec.getLsbD_twoPow]
      by_cases h : (i : Int) + 1 = N
      · have e : (N - 1).toNat = i := by omega
        rw [e]
        simp [hi, h]
      · have e : (N - 1).toNat ≠ i := by omega
        simp only [List.mem_cons, h, e, decide_false, Bool.and_false, Bool.false_or, false_or]

theorem isBitSet_eq (v : BitVec 32) {b : Int} (h1 : 1 ≤ b) (h2 : b ≤ 32) :
    isBitSet v b = some (decide (b ≤ 31) && v.getLsbD (b - 1).toNat) := by
  unfold isBitSet
  rw [shifted_eq h1 h2]
  simp only [Option.bind_eq_bind, Option.bind_some, Option.some.injEq]
  rw [BitVec.and_twoPow]
  by_cases h : v.getLsbD (b - 1).toNat = true
  · rw [if_pos h, h, Bool.and_true]
    by_cases hb : b ≤ 31
    · have hlt : (b - 1).toNat < 31 := by omega
      have ht : (BitVec.twoPow 32 (b - 1).toNat).toInt = 2 ^ (b - 1).toNat := by
        rw [BitVec.toInt_twoPow]
        simp only [show ¬ (32 ≤ (b - 1).toNat) by omega, if_false]
        rw [if_neg (by omega)]
      rw [ht]
      have : (0 : Int) < 2 ^ (b - 1).toNat := Int.pow_pos (by omega)
      rw [decide_eq_true this, decide_eq_true hb]
    · have hb' : b = 32 := by omega
      subst hb'
      decide
  · rw [if_neg h, Bool.not_eq_true _ |>.mp h, Bool.and_false]
    decide

/-- C94: for bits from 1 to 31, in a mask of any numbers from 1 to 32, a bit is set exactly if it was given. -/
theorem C94_bits_partial (l : List Int) (hl : l ≠ []) (hb : ∀ N ∈ l, 1 ≤ N ∧ N ≤ 32) (b : Int) (h1 : 1 ≤ b) (h2 : b ≤ 31) :
    ∃ v, mask l = some v ∧ isBitSet v b = some (decide (b ∈ l)) := by
  obtain ⟨v, hv, hbits⟩ := mask_bits l hl hb
  refine ⟨v, hv, ?_⟩
  rw [isBitSet_eq v h1 (by omega), hbits _ (by omega)]
  have e : (((b - 1).toNat : Nat) : Int) + 1 = b := by omega
  rw [e]
  simp [h2]

/-- C94 does not hold for bit 32, the sign: it is never set, although it can be given. -/
theorem C94_sign_violated (l : List Int) (hb : ∀ N ∈ l, 1 ≤ N ∧ N ≤ 32) (h32 : (32 : Int) ∈ l) :
    ∃ v, mask l = some v ∧ isBitSet v 32 = some false := by
  obtain ⟨v, hv, _⟩ := mask_bits l (List.ne_nil_of_mem h32) hb
  exact ⟨v, hv, by rw [isBitSet_eq v (by omega) (by omega)]; simp⟩

theorem anyBitOf_eq (v : BitVec 32) : ∀ bs : List Int, bs ≠ [] → (∀ b ∈ bs, 1 ≤ b ∧ b ≤ 31) →
    anyBitOf v bs = some (bs.any fun b => v.getLsbD (b - 1).toNat)
  | [], h, _ => absurd rfl h
  | [b], _, hb => by
    have h := hb b (by simp)
    rw [anyBitOf, isBitSet_eq v h.1 (by omega)]
    simp [h.2]
  | b :: c :: bs, _, hb => by
    have h := hb b (by simp)
    rw [anyBitOf, isBitSet_eq v h.1 (by omega), anyBitOf_eq v (c :: bs) (by simp) (fun x hx => hb x (by simp [hx]))]
    · simp only [h.2, decide_true, Bool.true_and, Option.bind_eq_bind, Option.bind_some, List.any_cons]
      cases v.getLsbD (b - 1).toNat <;> simp
    · intro h; simp at h

/-- C94: `any_bit_of` asks whether one of the bits was given. -/
theorem C94_any (l bs : List Int) (hl : l ≠ []) (hb : ∀ N ∈ l, 1 ≤ N ∧ N ≤ 32) (hbs : bs ≠ []) (h : ∀ b ∈ bs, 1 ≤ b ∧ b ≤ 31) :
    ∃ v, mask l = some v ∧ ∃ r, anyBitOf v bs = some r ∧ (r = true ↔ ∃ b, b ∈ bs ∧ b ∈ l) := by
  obtain ⟨v, hv, hbits⟩ := mask_bits l hl hb
  refine ⟨v, hv, _, anyBitOf_eq v bs hbs h, ?_⟩
  rw [List.any_eq_true]
  constructor
  · rintro ⟨b, hm, hb'⟩
    have := h b hm
    rw [hbits _ (by omega)] at hb'
    have e : (((b - 1).toNat : Nat) : Int) + 1 = b := by omega
    rw [e] at hb'
    exact ⟨b, hm, by simpa using hb'⟩
  · rintro ⟨b, hm, hb'⟩
    have := h b hm
    refine ⟨b, hm, ?_⟩
    rw [hbits _ (by omega)]
    have e : (((b - 1).toNat : Nat) : Int) + 1 = b := by omega
    rw [e]
    simpa using hb'

/-- C94: zero is accepted only as the last number, where it adds nothing. -/
theorem C94_zero (N : Int) (h1 : 1 ≤ N) (h2 : N ≤ 32) (l : List Int) (hl : l ≠ []) :
    mask (0 :: l) = none ∧ mask [N, 0] = mask [N] ∧ mask [0] = some 0#32 := by
  refine ⟨?_, ?_, by decide⟩
  · cases l with
    | nil => exact absurd rfl hl
    | cons a l => rw [mask]; · rfl
                  · intro h; simp at h
  · have e1 : mask [N] = shifted N := by rw [mask, if_neg (by omega)]
    have e0 : mask [0] = some 0#32 := by decide
    have e2 : mask [N, 0] = (shifted N >>= fun a => mask [0] >>= fun b => some (a ||| b)) := rfl
    rw [e2, e0, e1, shifted_eq h1 h2]
    simp

namespace Ex94

example : ∃ v, mask [1, 3] = some v ∧ isBitSet v 3 = some true := C94_bits_partial [1, 3] (by simp) (by decide) 3 (by omega) (by omega)
example : ∃ v, mask [1, 3] = some v ∧ isBitSet v 2 = some false := C94_bits_partial [1, 3] (by simp) (by decide) 2 (by omega) (by omega)
example : ∃ v, mask [2, 32] = some v ∧ isBitSet v 32 = some false := C94_sign_violated [2, 32] (by decide) (by simp)
/-- `EnergyAll` and `EnergySecond`. -/
example : (mask [1, 2, 3] >>= fun v => anyBitOf v [1, 2]) = some true ∧ (mask [3] >>= fun v => anyBitOf v [1, 2]) = some false := by decide

end Ex94

/-! ### C95 -/

/-- Text of an option: `--name=value`, with characters of names in the name and one line of value. -/
def option (name value : List Char) : List Char := ['-', '-'] ++ name ++ ['='] ++ value

theorem takeWhile_append_stop {p : Char → Bool} : ∀ (l : List Char) (c : Char) (r : List Char), (∀ x ∈ l, p x = true) → p c = false →
    (l ++ c :: r).takeWhile p = l ∧ (l ++ c :: r).dropWhile p = c :: r
  | [], c, r, _, hc => by simp [hc]
  | a :: l, c, r, hl, hc => by
    have ih := takeWhile_append_stop l c r (fun x hx => hl x (by simp [hx])) hc
    have ha := hl a (by simp)
    simp [ha, ih]

theorem takeWhile_all {p : Char → Bool} : ∀ (l : List Char), (∀ x ∈ l, p x = true) → l.takeWhile p = l
  | [], _ => rfl
  | a :: l, h => by simp [h a (by simp), takeWhile_all l (fun x hx => h x (by simp [hx]))]

theorem search_option (name rest : List Char) (hn : ∀ c ∈ name, isNameChar c = true) :
    search (['-', '-'] ++ name ++ ['='] ++ rest) = some (name, (skipQuote rest).takeWhile isDot) := by
  have e : ['-', '-'] ++ name ++ ['='] ++ rest = '-' :: '-' :: (name ++ '=' :: rest) := by simp
  rw [e, search]
  obtain ⟨h1, h2⟩ := takeWhile_append_stop name '=' rest hn (by decide)
  have hm : matchName (name ++ '=' :: rest) = some (name, (skipQuote rest).takeWhile isDot) := by
    unfold matchName
    rw [h2]
    simp only
    rw [h1]
  simp only [hm]

/-- C95: an option without quotes, anywhere on the command line, sets the parameter to the value. -/
theorem C95_plain (first : Bool) (name value : List Char) (hn : ∀ c ∈ name, isNameChar c = true) (hv : ∀ c ∈ value, isDot c = true)
    (hq : value.head? ≠ some '"') : argument first (option name value) = .ok [.set name value] := by
  have ht : (option name value).take 2 = ['-', '-'] := by simp [option]
  have hs : skipQuote value = value := by
    cases value with
    | nil => rfl
    | cons c l =>
      have : c ≠ '"' := by simpa using hq
      unfold skipQuote
      split
      · rename_i h; simp at h; exact absurd h.1 this
      · rfl
  have := search_option name value hn
  rw [hs, takeWhile_all value hv] at this
  unfold argument
  rw [if_neg (by simp [ht]), if_pos ht]
  change (match search (option name value) with | some (n, v) => Res.ok [Call.set n v] | none => Res.exc Exc.assertThrow) = _
  unfold option
  rw [this]

/-- C95 does not hold for the second of the two forms the message for the user names, `--name="value"`: the closing quote becomes part of the
value, for all names and values. -/
theorem C95_quoted_violated (first : Bool) (name value : List Char) (hn : ∀ c ∈ name, isNameChar c = true) (hv : ∀ c ∈ value, isDot c = true) :
    argument first (option name ('"' :: (value ++ ['"']))) = .ok [.set name (value ++ ['"'])] := by
  have ht : (option name ('"' :: (value ++ ['"']))).take 2 = ['-', '-'] := by simp [option]
  have hv' : ∀ c ∈ value ++ ['"'], isDot c = true := by
    intro c hc
    rcases List.mem_append.mp hc with h | h
    · exact hv c h
    · have : c = '"' := by simpa using h
      subst this
      decide
  have := search_option name ('"' :: (value ++ ['"'])) hn
  rw [show skipQuote ('"' :: (value ++ ['"'])) = value ++ ['"'] from rfl, takeWhile_all _ hv'] at this
  unfold argument
  rw [if_neg (by simp [ht]), if_pos ht]
  unfold option
  rw [this]

/-- C95: an argument that is no option is read as a file only in the first place; later ones are left out without notice. -/
theorem C95_other (flag : List Char) (h : flag.take 2 ≠ ['-', '-']) :
    argument true flag = .ok [.file flag] ∧ argument false flag = .ok [] := by
  simp [argument, h]

theorem matchName_none (l : List Char) (h : '=' ∉ l) : matchName l = none := by
  unfold matchName
  split
  · rename_i v hd
    exfalso
    have hm : '=' ∈ l.dropWhile isNameChar := by rw [hd]; simp
    exact h ((List.dropWhile_sublist isNameChar).subset hm)
  · rfl

theorem search_none : ∀ (l : List Char), '=' ∉ l → search l = none
  | [], _ => by simp [search]
  | [c], _ => by
    by_cases hc : c = '-' <;> simp [search]
  | c :: d :: l, h => by
    have ih : search (d :: l) = none := search_none (d :: l) (fun hm => h (by simp at hm ⊢; exact Or.inr hm))
    by_cases hcd : c = '-' ∧ d = '-'
    · obtain ⟨rfl, rfl⟩ := hcd
      rw [search, matchName_none l (fun hm => h (by simp [hm]))]
      exact ih
    · rw [search]
      · exact ih
      · rintro l' rfl h'
        simp at h'
        exact hcd ⟨rfl, h'.1⟩

/-- C95: an option without `=` is refused. -/
theorem C95_refused (first : Bool) (flag : List Char) (h : flag.take 2 = ['-', '-']) (he : '=' ∉ flag) :
    argument first flag = .exc .assertThrow := by
  simp [argument, h, search_none flag he]

/-- C95: the expression may match in the middle: text between the leading dashes and later dashes is left out without notice. -/
theorem C95_middle_violated (first : Bool) (pre name value : List Char) (hpre : ∃ c l, pre = c :: l ∧ isNameChar c = false ∧ c ≠ '=' ∧ c ≠ '-')
    (hd : '-' ∉ pre) (hn : ∀ c ∈ name, isNameChar c = true) (hv : ∀ c ∈ value, isDot c = true) (hq : value.head? ≠ some '"') :
    argument first (['-', '-'] ++ pre ++ option name value) = .ok [.set name value] := by
  have hs : skipQuote value = value := by
    cases value with
    | nil => rfl
    | cons c l =>
      have : c ≠ '"' := by simpa using hq
      unfold skipQuote
      split
      · rename_i h; simp at h; exact absurd h.1 this
      · rfl
  have hopt := search_option name value hn
  rw [hs, takeWhile_all value hv] at hopt
  have skip : ∀ (p : List Char), '-' ∉ p → search (p ++ option name value) = some (name, value) := by
    intro p
    induction p with
    | nil => intro _; exact hopt
    | cons c p ih =>
      intro hm
      have hc : c ≠ '-' := fun h => hm (by simp [h])
      rw [List.cons_append, search]
      · exact ih (fun h => hm (by simp [h]))
      · rintro l' rfl _
        exact hc rfl
  obtain ⟨c, l, rfl, hc, hce, hcd⟩ := hpre
  have e1 : ['-', '-'] ++ (c :: l) ++ option name value = '-' :: '-' :: (c :: (l ++ option name value)) := by simp
  have hm : matchName (c :: (l ++ option name value)) = none := by
    unfold matchName
    rw [List.dropWhile_cons_of_neg (by simp [hc])]
    split
    · rename_i h; simp at h; exact absurd h.1 hce
    · rfl
  have hsearch : search (['-', '-'] ++ (c :: l) ++ option name value) = some (name, value) := by
    rw [e1, search, hm]
    change search ('-' :: c :: (l ++ option name value)) = _
    rw [search]
    · exact skip (c :: l) hd
    · rintro l' _ h'
      simp at h'
      exact hcd h'.1
  have ht : (['-', '-'] ++ (c :: l) ++ option name value).take 2 = ['-', '-'] := by simp
  unfold argument
  rw [if_neg (by simp), if_pos ht, hsearch]

/-- C95: with a file first and then options without quotes, the file is read, then the parameters are set in the order of the command line, so
that the last one counts, and the parameters are checked at the end. -/
theorem C95_order (offset : Nat) (argv : List (List Char)) (file : List Char) (opts : List (List Char × List Char))
    (hf : file.take 2 ≠ ['-', '-'])
    (ho : ∀ o ∈ opts, (∀ c ∈ o.1, isNameChar c = true) ∧ (∀ c ∈ o.2, isDot c = true) ∧ o.2.head? ≠ some '"')
    (ha : argv.drop offset = file :: opts.map fun o => option o.1 o.2) :
    parseParams offset argv = .ok (.file file :: (opts.map (fun o => .set o.1 o.2) ++ [.check])) := by
  have hopts : ∀ l : List (List Char × List Char), (∀ o ∈ l, (∀ c ∈ o.1, isNameChar c = true) ∧ (∀ c ∈ o.2, isDot c = true) ∧ o.2.head? ≠ some '"') →
      arguments false (l.map fun o => option o.1 o.2) = .ok (l.map fun o => .set o.1 o.2) := by
    intro l
    induction l with
    | nil => intro _; rfl
    | cons o l ih =>
      intro h
      have h0 := h o (by simp)
      simp only [List.map_cons, arguments]
      rw [C95_plain false o.1 o.2 h0.1 h0.2.1 h0.2.2, Res.ok_bind, ih (fun x hx => h x (by simp [hx])), Res.ok_bind]
      rfl
  unfold parseParams
  rw [ha, arguments, (C95_other file hf).1, Res.ok_bind, hopts opts ho]
  rfl

namespace Ex95

example : argument false "--Output.Debug=true".toList = .ok [.set "Output.Debug".toList "true".toList] := by decide +kernel
example : argument false "--Output.Name=\"a b\"".toList = .ok [.set "Output.Name".toList "a b\"".toList] := by decide +kernel
example : argument false "-Output.Debug=true".toList = .ok [] := by decide +kernel
example : argument true "-- x--a=1".toList = .ok [.set "a".toList "1".toList] := by decide +kernel
example : parseParams 2 ["sintering".toList, "--cloud".toList, "p.prm".toList, "--a.b=1".toList, "--a.b=2".toList] =
    .ok [.file "p.prm".toList, .set "a.b".toList "1".toList, .set "a.b".toList "2".toList, .check] := by decide +kernel

end Ex95

/-! ### C96 -/

/-- The names used, from the scopes around each use and the first exception on; the second value: an exception is on its way. -/
def usedNames (path : List String) : Code → List (List String) × Bool
  | .skip => ([], false)
  | .use => ([path], false)
  | .throws => ([], true)
  | .scope name body => usedNames (path ++ [name]) body
  | .seq a b => if (usedNames path a).2 then usedNames path a else ((usedNames path a).1 ++ (usedNames path b).1, (usedNames path b).2)
  | .handled body => ((usedNames path body).1, false)

/-- C96: whatever the scopes and exceptions, the destructors find their own name, the path is the same afterwards, and every use gives the names
of the scopes around it, from the outermost on. -/
theorem C96 (c : Code) : ∀ path : List String,
    run path c = .ok ⟨path, (usedNames path c).1.map ("::".intercalate ·), (usedNames path c).2⟩ := by
  induction c with
  | skip => intro path; rfl
  | use => intro path; rfl
  | throws => intro path; rfl
  | scope name body ih =>
    intro path
    rw [run, ih, Res.ok_bind]
    simp [leave, usedNames]
  | seq a b iha ihb =>
    intro path
    rw [run, iha, Res.ok_bind, usedNames]
    cases h : (usedNames path a).2
    · simp [ihb]
    · simp [h]
  | handled body ih =>
    intro path
    rw [run, ih, Res.ok_bind]
    rfl

namespace Ex96

/-- The Newton step that fails inside of two scopes, with a handler outside, and a use afterwards. -/
def code : Code := .scope "time_loop" (.seq (.handled (.scope "newton" (.seq .use (.scope "residual" (.seq .use .throws))))) .use)

example : run [] code = .ok ⟨[], ["time_loop::newton", "time_loop::newton::residual", "time_loop"], false⟩ := by decide +kernel

end Ex96

end Verif.Props
