import Verif.Lemmas.Json
import Verif.Model.Stored
import Verif.Props.CliFormats

/-!
C127: the output in JSON can be read back. C128: the note about the last change of an element can be read back.
-/

set_option autoImplicit false

namespace HunLaw.Props

open HunLaw HunLaw.Spec HunLaw.Cli HunLaw.Serde

/-! ### C127: JSON -/

/-- C127: whatever document is written, reading its text by the rules of JSON gives the document. -/
theorem C127_read (float : Rat → Str) (decimals : Str → Option Rat) (hf : Spec.Json.Faithful float decimals) (v : Value) :
    Spec.Json.document decimals (Json.write float v) = some v := Json.document_written hf v

/-- C127: different documents have different texts. -/
theorem C127_distinct (float : Rat → Str) (decimals : Str → Option Rat) (hf : Spec.Json.Faithful float decimals)
    (v w : Value) (h : Json.write float v = Json.write float w) : v = w := by
  have := C127_read float decimals hf v
  rw [h, C127_read float decimals hf w] at this
  exact (Option.some.inj this).symm

/-- C127: the text is one line without control characters, whatever is in the texts of the document. -/
theorem C127_line (float : Rat → Str) (hf : ∀ x, ∀ c ∈ float x, c ∈ Spec.Json.numberChars) (v : Value) :
    ∀ c ∈ Json.write float v, 32 ≤ c.toNat := Json.write_printable hf v

/-- C127: an act is read back from its text. -/
theorem C127_act (float : Rat → Str) (decimals : Str → Option Rat) (hf : Spec.Json.Faithful float decimals)
    (a : Act Amendment) (h : ProperAct a) :
    (Spec.Json.document decimals (Json.write float (actDocument a))).bind documentAct = some a := by
  rw [C127_read float decimals hf]
  exact C96_act a h

/-- C127: what the program writes in this format is one line, and the act which was processed is read back from it. -/
theorem C127_output (env : Env) (args : Args) (raw : ActRawText) (fixups : Res (List Fixup)) (s : Str)
    (float : Rat → Str) (decimals : Str → Option Rat) (hf : Spec.Json.Faithful float decimals)
    (henv : ∀ a, env.actData .json a = .ok (Json.write float (actDocument a)))
    (hd : ProperDate raw.publicationDate) (hs : args.parseUntil = .semantic) (hj : args.format = .json)
    (h : processAct env (effective args) raw fixups = (s, .ok ())) :
    ∃ a, Processed env raw fixups a ∧ (Spec.Json.document decimals s).bind documentAct = some a ∧
      ∀ c ∈ s, 32 ≤ c.toNat := by
  obtain ⟨a, h1, h2⟩ := processed_text hs h
  have he : effective args = args := by simp [effective, hj]
  rw [he] at h2
  simp only [actText, hj, henv, Res.ok.injEq] at h2
  subst h2
  refine ⟨a, h1, C127_act float decimals hf a ?_, C127_line float hf.chars _⟩
  obtain ⟨f, body, b, b', changed, -, -, h5, h6, h7⟩ := h1
  have := C96_pipeline env.upper { raw with body := body } b b' changed hd h5 h6
  rwa [h7] at this

/-- C127: the lines of an act are determined by their text as well. -/
theorem C127_raw (float : Rat → Str) (decimals : Str → Option Rat) (hf : Spec.Json.Faithful float decimals)
    (a b : ActRawText) (ha : ProperDate a.publicationDate) (hb : ProperDate b.publicationDate)
    (h : Json.write float (rawDocument a) = Json.write float (rawDocument b)) : a = b := by
  have h := C127_distinct float decimals hf _ _ h
  simp only [rawDocument, Serde.put, List.cons_append, List.nil_append, Value.map.injEq, List.cons.injEq, Prod.mk.injEq, true_and,
    and_true] at h
  obtain ⟨h1, h2, h3, h4⟩ := h
  have e1 := actId_lossless a.identifier trivial
  rw [h1, actId_lossless b.identifier trivial] at e1
  have e2 := text_lossless a.subject trivial
  rw [h2, text_lossless b.subject trivial] at e2
  have e3 := date_lossless a.publicationDate ha
  rw [h3, date_lossless b.publicationDate hb] at e3
  have e4 := list_lossless line_lossless a.body fun _ _ => trivial
  rw [h4, list_lossless line_lossless b.body fun _ _ => trivial] at e4
  cases a
  cases b
  simp only [Option.some.injEq] at e1 e2 e3 e4
  simp only [e1, e2, e3, e4]

/-- C127: and so are pages. -/
theorem C127_pages (float : Rat → Str) (decimals : Str → Option Rat) (hf : Spec.Json.Faithful float decimals)
    (a b : List Page) (h : Json.write float (pagesDocument a) = Json.write float (pagesDocument b)) : a = b := by
  have h := C127_distinct float decimals hf _ _ h
  simp only [pagesDocument, Value.seq.injEq] at h
  refine List.map_injective_iff.2 (fun x y hxy => ?_) h
  simp only [pageDocument, Serde.put, Value.map.injEq, List.cons.injEq, Prod.mk.injEq, true_and, and_true] at hxy
  have e := list_lossless line_lossless x fun _ _ => trivial
  rw [hxy, list_lossless line_lossless y fun _ _ => trivial] at e
  exact (Option.some.inj e).symm

/-- A way to write fractions: the numerator, the letter and the denominator. -/
def someFloat (x : Rat) : Str := decInt x.num ++ 'e' :: dec x.den

/-- A way to read them. -/
def someDecimals (s : Str) : Option Rat :=
  match Spec.Json.number (fun _ => none) (s.takeWhile (· ≠ 'e')), parseDigits (s.dropWhile (· ≠ 'e')).tail with
  | some (.int n), some d => some (mkRat n d)
  | _, _ => none

theorem someFloat_faithful : Spec.Json.Faithful someFloat someDecimals where
  read x := by
    have hn : ∀ c ∈ decInt x.num, c ≠ 'e' := fun c hc he => by
      subst he
      unfold decInt at hc
      have key : ∀ n, 'e' ∉ dec n := fun n h => absurd (dec_digits n 'e' h) (by decide)
      split at hc
      · exact key _ (by simpa using hc)
      · exact key _ hc
    have h1 : (someFloat x).takeWhile (· ≠ 'e') = decInt x.num := by
      unfold someFloat
      rw [List.takeWhile_append_of_pos (by simpa using hn)]
      simp
    have h2 : (someFloat x).dropWhile (· ≠ 'e') = 'e' :: dec x.den := by
      unfold someFloat
      rw [List.dropWhile_append_of_pos (by simpa using hn)]
      simp
    unfold someDecimals
    rw [h1, h2, Json.number_int, List.tail_cons, parseDigits_dec]
    simp only [Rat.mkRat_self]
  chars x c hc := by
    unfold someFloat at hc
    rcases List.mem_append.1 hc with h | h
    · exact Json.decInt_chars _ c h
    · rcases List.mem_cons.1 h with rfl | h
      · decide
      · exact Json.digit_numberChar (dec_digits _ c h)
  fraction x := ⟨'e', by simp [someFloat], by decide⟩
  first x := by
    obtain ⟨c, hc, h⟩ := Json.decInt_first x.num
    refine ⟨c, hc, ?_⟩
    cases hd : decInt x.num with
    | nil => rw [hd] at h; simp at h
    | cons d s => rw [hd] at h; simpa [someFloat, hd] using h

/-- A document with quotation marks, line ends, control characters and a negative number, and other ways to write one. -/
example : Json.write someFloat (.map [(str!"a\"b", .seq [.str str!"x\n\x01\\", .int (-12), .null, .bool true, .map []])]) =
      str!"{\"a\\\"b\":[\"x\\n\\u0001\\\\\",-12,null,true,{}]}" ∧
    Spec.Json.document someDecimals str!" { \"a\" : [ \"\\u0151\\/\", 5 ,\"\\ud83d\\ude00\" ] } " =
      some (.map [(str!"a", .seq [.str str!"ő/", .int 5, .str str!"😀"])]) ∧
    Spec.Json.document someDecimals str!"[1,]" = none ∧ Spec.Json.document someDecimals str!"{\"a\":01}" = none := by
  refine ⟨by rfl, by rfl, by rfl, by rfl⟩

/-- An act with amendments and references in this format. -/
example : Res.map (fun a => decide (((Spec.Json.document someDecimals (Json.write someFloat
      (actDocument (BlockAmend.act asciiUpper (Semantic.addSemanticInfo a).1.lift).1))).bind documentAct =
        some (BlockAmend.act asciiUpper (Semantic.addSemanticInfo a).1.lift).1)))
    (parseActStructure asciiUpper (sampleRaw outputBody)) = .ok true := by decide +kernel

/-! ### C128: notes about changes -/

/-- C128: a note is read again as it was. -/
theorem C128_read (x : LastChange) (h : ProperChange x) : lastChange.de (lastChange.ser x) = some x :=
  lastChange_lossless x h

/-- C128: only notes with a date of the calendar and a well-formed reference are read. -/
theorem C128_proper (v : Value) (x : LastChange) (h : lastChange.de v = some x) : ProperChange x :=
  lastChange_sound v x h

/-- An amendment, a repeal that happens by itself and another cause; a cause with an unknown name is not read. -/
example : lastChange.de (.map [(str!"date", .str str!"2022-02-28"), (str!"cause", .str str!"AutoRepeal")]) =
      some ⟨⟨2022, 2, 28⟩, .autoRepeal⟩ ∧
    lastChange.de (.map [(str!"cause", .map [(str!"Other", .str str!"x")]), (str!"date", .str str!"2022-02-28")]) =
      some ⟨⟨2022, 2, 28⟩, .other str!"x"⟩ ∧
    lastChange.de (.map [(str!"date", .str str!"2022-02-28"), (str!"cause", .str str!"Repeal")]) = none ∧
    lastChange.de (lastChange.ser ⟨⟨2022, 2, 28⟩, .amendment ⟨some btkAct, some (.single ⟨none, .ofNum 3⟩), none, none, none⟩⟩) =
      some ⟨⟨2022, 2, 28⟩, .amendment ⟨some btkAct, some (.single ⟨none, .ofNum 3⟩), none, none, none⟩⟩ := by
  decide +kernel

end HunLaw.Props
