import Verif.Lemmas.ExactQuote

/-! The parsers of each level find exactly what the exact grammar says. -/

set_option autoImplicit false

namespace HunLaw

open HunLaw.Spec SAEParser

/-! ### first characters -/

/-- What kind of character a header begins with. -/
inductive FirstKind where
  | digit | letter | mark
  deriving DecidableEq

def kindOf (c : Char) : FirstKind :=
  if c ∈ ['(', '[', '„', '“'] then .mark else if '0'.toNat ≤ c.toNat ∧ c.toNat ≤ '9'.toNat then .digit else .letter

theorem first_of_header {Header : Str → Prop} {IdText Closing : Str → Prop} {excluded : List Str} {s t r : Str} {k : FirstKind}
    (h : HeaderLine [] IdText Closing excluded s t r) (hk : ∀ t, IdText t → ∃ c u, t = c :: u ∧ kindOf c = k) :
    ∃ c u, s = c :: u ∧ kindOf c = k := by
  obtain ⟨cl, sp, rfl, h1, _⟩ := h
  obtain ⟨c, u, rfl, hc⟩ := hk t h1
  exact ⟨c, _, rfl, hc⟩

theorem digits_first {d : Str} (h : Digits d) : ∃ c u, d = c :: u ∧ kindOf c = .digit := by
  obtain ⟨h1, h2⟩ := h
  cases d with
  | nil => exact absurd rfl h1
  | cons c u =>
    refine ⟨c, u, rfl, ?_⟩
    have hd := h2 c (by simp)
    have : c ∉ ['(', '[', '„', '“'] := by
      intro hm
      simp only [List.mem_cons, List.not_mem_nil, or_false] at hm
      rcases hm with rfl | rfl | rfl | rfl <;> revert hd <;> decide
    unfold kindOf
    rw [if_neg this, if_pos hd]

theorem numeric_first (t : Str) (h : NumericIdText t) : ∃ c u, t = c :: u ∧ kindOf c = .digit := by
  obtain ⟨d, hd, h⟩ := h
  obtain ⟨c, u, rfl, hc⟩ := digits_first hd
  rcases h with rfl | ⟨x, _, rfl | rfl⟩
  · exact ⟨c, u, rfl, hc⟩
  · exact ⟨c, _, rfl, hc⟩
  · exact ⟨c, _, rfl, hc⟩

theorem alphabetic_first (t : Str) (h : AlphabeticIdText t) : ∃ c u, t = c :: u ∧ kindOf c = .letter := by
  have key : ∀ t ∈ alphabet, t.head?.map kindOf = some .letter := by decide +kernel
  have := key t h
  cases t with
  | nil => cases this
  | cons c u => exact ⟨c, u, rfl, by simpa using this⟩

theorem lower_first {c : Char} (h : LowerLetter c) : kindOf c = .letter := by
  unfold LowerLetter at h
  have h1 : c ∉ ['(', '[', '„', '“'] := by
    intro hm
    simp only [List.mem_cons, List.not_mem_nil, or_false] at hm
    rcases hm with rfl | rfl | rfl | rfl <;> revert h <;> decide
  have h2 : ¬ ('0'.toNat ≤ c.toNat ∧ c.toNat ≤ '9'.toNat) := by
    rintro ⟨_, hd⟩
    have : '9'.toNat < 'a'.toNat := by decide
    omega
  unfold kindOf
  rw [if_neg h1, if_neg h2]

theorem prefixed_first (t : Str) (h : PrefixedIdText t) : ∃ c u, t = c :: u ∧ kindOf c = .letter := by
  obtain ⟨c, hc, rfl | ⟨b, hb, rfl⟩⟩ := h
  · exact ⟨c, [], rfl, lower_first hc⟩
  · exact ⟨b, [c], rfl, lower_first hb⟩

/-- The kind of character a line begins with. -/
def StartsWith (k : FirstKind) (l : Line) : Prop := ∃ c u, l.content = c :: u ∧ kindOf c = k

theorem StartsWith.unique {k k' : FirstKind} {l : Line} (h : StartsWith k l) (h' : StartsWith k' l) : k = k' := by
  obtain ⟨c, u, hc, rfl⟩ := h
  obtain ⟨c', u', hc', rfl⟩ := h'
  rw [hc] at hc'
  simp only [List.cons.injEq] at hc'
  rw [hc'.1]

theorem numericHead_first {l : Line} {id : NumericId} {rest : Line} (h : NumericHead l id rest) : StartsWith .digit l := by
  obtain ⟨t, r, h, _⟩ := h
  exact first_of_header (Header := fun _ => True) h numeric_first

theorem alphabeticHead_first {l : Line} {id : HunChar} {rest : Line} (h : AlphabeticHead l id rest) : StartsWith .letter l := by
  obtain ⟨t, r, h, _⟩ := h
  exact first_of_header (Header := fun _ => True) h alphabetic_first

theorem prefixedHead_first {pfx : Option HunChar} {l : Line} {id : PrefixedId} {rest : Line} (h : PrefixedHead pfx l id rest) :
    StartsWith .letter l := by
  obtain ⟨⟨t, r, h, _⟩, _⟩ := h
  exact first_of_header (Header := fun _ => True) h prefixed_first

section
variable {I C : Type} [DecidableEq I] [IdentifierCommon I] {Head : Line → I → Line → Prop}
  {El : WrapUpMode → I → List Line → SAE I C → List Line → Prop} {First : I → Prop} {context : ParsingContext}
  {wrapUps : Bool} {n : Nat} {ls : List Line} {es : List (SAE I C)} {w : Option Str} {more : List Line}

omit [DecidableEq I] in
theorem listIs_head (h : ListIs Head First El context wrapUps n ls es w more) :
    ∃ l others id rest, ls = l :: others ∧ Head l id rest := by
  obtain ⟨⟨is, last, first, rfl, _, _, _, hf, _, hit, _⟩, _⟩ := h
  cases is with
  | nil =>
    exact ⟨last.head, _, last.id, last.rest, by simp [itemLines]; rfl, hit.1⟩
  | cons i is => exact ⟨i.head, _, i.id, i.rest, by simp [itemLines]; rfl, hit.1⟩

omit [DecidableEq I] in
theorem listIs_first {k : FirstKind} (hk : ∀ l id rest, Head l id rest → StartsWith k l)
    (h : ListIs Head First El context wrapUps n ls es w more) : ∃ l others, ls = l :: others ∧ StartsWith k l := by
  obtain ⟨l, others, id, rest, e, hh⟩ := listIs_head h
  exact ⟨l, others, e, hk _ _ _ hh⟩

omit [DecidableEq I] in
theorem listIs_nested (h : ListIs Head First El context wrapUps n ls es w more) : NestedLines ls ∧ ls ≠ [] := by
  obtain ⟨l, others, id, rest, e, hh⟩ := listIs_head h
  exact ⟨h.2, by rw [e]; simp⟩
end

theorem first_conflict {k k' : FirstKind} {ls : List Line} (h : ∃ l others, ls = l :: others ∧ StartsWith k l)
    (h' : ∃ l others, ls = l :: others ∧ StartsWith k' l) : k = k' := by
  obtain ⟨l, o, e, h⟩ := h
  obtain ⟨l', o', e', h'⟩ := h'
  rw [e] at e'
  simp only [List.cons.injEq] at e'
  obtain ⟨rfl, rfl⟩ := e'
  exact h.unique h'

theorem quoted_first {prev : Option Line} {ls : List Line} {bs : List QuotedBlock} {w : Option Str} (h : QuotedAre prev ls bs w) :
    ∃ l others, ls = l :: others ∧ StartsWith .mark l := by
  obtain ⟨_, _, first, others, c, t, e, hc, ho⟩ := quoted_of (quoted_complete h)
  refine ⟨first, others, e, c, t, hc, ?_⟩
  have : c ∈ ['(', '[', '„', '“'] := by
    rcases ho with (rfl | rfl) | ⟨rfl | rfl, _⟩ <;> simp
  simp [kindOf, this]

theorem quoted_nested {prev : Option Line} {ls : List Line} {bs : List QuotedBlock} {w : Option Str} (h : QuotedAre prev ls bs w) :
    NestedLines ls ∧ ls ≠ [] := by
  obtain ⟨l, o, e, _⟩ := quoted_first h
  exact ⟨h.1, by rw [e]; simp⟩

/-- The second parser gives the result if the first one gives none. -/
theorem OkOr.orElse {α : Type} {x : Res α} {f : Unit → Res α} {a : α} (hx : ∀ b, x ≠ .ok b) (hf : OkOr (f ()) a) :
    OkOr (x.orElse f) a := by
  cases x with
  | ok b => exact absurd rfl (hx b)
  | err => exact hf
  | panic => exact .inr rfl

theorem OkOr.orElse_left {α : Type} {x : Res α} {f : Unit → Res α} {a : α} (hx : OkOr x a) : OkOr (x.orElse f) a := by
  rcases hx with h | h <;> rw [h]
  · exact .inl rfl
  · exact .inr rfl

theorem map_not_ok {α β : Type} {x : Res α} {f : α → β} (h : ∀ a, x ≠ .ok a) : ∀ b, Res.map f x ≠ .ok b := by
  intro b hb
  obtain ⟨a, ha, _⟩ := map_ok.1 hb
  exact h a ha

/-! ### levels -/

variable {context : ParsingContext}

theorem alphabeticSubpoint_children (pfx : Option HunChar) :
    ChildrenExact (alphabeticSubpointParser pfx) context (fun _ _ _ _ _ _ => False) :=
  ⟨fun _ _ _ _ _ h => (by cases h), fun _ _ _ _ _ _ h => h.elim, fun _ _ _ _ _ _ h => h.elim⟩

theorem numericSubpoint_children : ChildrenExact numericSubpointParser context (fun _ _ _ _ _ _ => False) :=
  ⟨fun _ _ _ _ _ h => (by cases h), fun _ _ _ _ _ _ h => h.elim, fun _ _ _ _ _ _ h => h.elim⟩

theorem alphabeticSubpoint_level (pfx : Option HunChar) :
    LevelExact (alphabeticSubpointParser pfx) context (PrefixedHead pfx) (SubpointIs context) where
  head := prefixedHead_iff pfx
  noErr l := (Props.C27_never_err l pfx).2.2.2.1
  quotes := prefixedHead_quotes pfx
  sound := parse_elementIs (alphabeticSubpoint_children pfx)
  complete _ _ _ _ _ h := parse_complete (alphabeticSubpoint_children pfx) h

theorem numericSubpoint_level : LevelExact numericSubpointParser context NumericHead (SubpointIs context) where
  head := Props.C27_numeric_header_iff
  noErr l := (Props.C27_never_err l none).2.1
  quotes := numericHead_quotes
  sound := parse_elementIs numericSubpoint_children
  complete _ _ _ _ _ h := parse_complete numericSubpoint_children h

theorem alphabeticPoint_children : ChildrenExact alphabeticPointParser context (AlphabeticChildrenAre context) where
  sound id prev ls ex hne h := by
    unfold alphabeticPointParser at h
    simp only at h
    rcases orElse_ok.1 h with h | ⟨-, h⟩
    · obtain ⟨r, hr, rfl⟩ := map_ok.1 h
      exact extractMultiple_listIs numericSubpoint_level hr
    · obtain ⟨r, hr, rfl⟩ := map_ok.1 h
      exact extractMultiple_listIs (alphabeticSubpoint_level _) hr
  complete id prev ls cs w more h := by
    unfold alphabeticPointParser
    simp only
    cases cs with
    | numericSubpoint l => exact .orElse_left (.map (f := Extracted.map AlphabeticPointChildren.numericSubpoint) (extractMultiple_complete numericSubpoint_level h))
    | alphabeticSubpoint l =>
      refine .orElse (map_not_ok ?_) (.map (f := Extracted.map AlphabeticPointChildren.alphabeticSubpoint) (extractMultiple_complete (alphabeticSubpoint_level _) h))
      intro r hr
      have h1 := listIs_first (fun _ _ _ => numericHead_first) (extractMultiple_listIs numericSubpoint_level hr)
      have h2 := listIs_first (fun _ _ _ => prefixedHead_first) h
      cases first_conflict h1 h2
  nested id prev ls cs w more h := by
    cases cs with
    | numericSubpoint l => exact listIs_nested h
    | alphabeticSubpoint l => exact listIs_nested h

theorem numericPoint_children : ChildrenExact numericPointParser context (NumericChildrenAre context) where
  sound id prev ls ex hne h := by
    unfold numericPointParser at h
    simp only at h
    obtain ⟨r, hr, rfl⟩ := map_ok.1 h
    exact extractMultiple_listIs (alphabeticSubpoint_level _) hr
  complete id prev ls cs w more h := by
    unfold numericPointParser
    simp only
    cases cs with
    | alphabeticSubpoint l =>
      exact .map (f := Extracted.map NumericPointChildren.alphabeticSubpoint) (extractMultiple_complete (alphabeticSubpoint_level _) h)
  nested id prev ls cs w more h := by
    cases cs with
    | alphabeticSubpoint l => exact listIs_nested h

theorem alphabeticPoint_level : LevelExact alphabeticPointParser context AlphabeticHead (AlphabeticPointIs context) where
  head := Props.C27_alphabetic_header_iff
  noErr l := (Props.C27_never_err l none).2.2.1
  quotes := alphabeticHead_quotes
  sound := parse_elementIs alphabeticPoint_children
  complete _ _ _ _ _ h := parse_complete alphabeticPoint_children h

theorem numericPoint_level : LevelExact numericPointParser context NumericHead (NumericPointIs context) where
  head := Props.C27_numeric_header_iff
  noErr l := (Props.C27_never_err l none).2.1
  quotes := numericHead_quotes
  sound := parse_elementIs numericPoint_children
  complete _ _ _ _ _ h := parse_complete numericPoint_children h

theorem paragraph_children : ChildrenExact paragraphParser context (ParagraphChildrenAre context) where
  sound id prev ls ex hne h := by
    unfold paragraphParser at h
    simp only at h
    rcases orElse_ok.1 h with h | ⟨-, h⟩
    · rcases orElse_ok.1 h with h | ⟨-, h⟩
      · obtain ⟨r, hr, rfl⟩ := map_ok.1 h
        exact quoted_sound hr
      · obtain ⟨r, hr, rfl⟩ := map_ok.1 h
        exact extractMultiple_listIs numericPoint_level hr
    · obtain ⟨r, hr, rfl⟩ := map_ok.1 h
      exact extractMultiple_listIs alphabeticPoint_level hr
  complete id prev ls cs w more h := by
    unfold paragraphParser
    simp only
    cases cs with
    | quotedBlock l =>
      obtain ⟨h, rfl⟩ := h
      exact .orElse_left (.orElse_left (.map (f := Extracted.map ParagraphChildren.quotedBlock) (.inl (quoted_complete h))))
    | numericPoint l =>
      refine .orElse_left (.orElse (map_not_ok ?_)
        (.map (f := Extracted.map ParagraphChildren.numericPoint) (extractMultiple_complete numericPoint_level h)))
      intro r hr
      have h1 := quoted_first (quoted_sound hr).1
      have h2 := listIs_first (fun _ _ _ => numericHead_first) h
      cases first_conflict h1 h2
    | alphabeticPoint l =>
      refine .orElse ?_ (.map (f := Extracted.map ParagraphChildren.alphabeticPoint) (extractMultiple_complete alphabeticPoint_level h))
      have h2 := listIs_first (fun _ _ _ => alphabeticHead_first) h
      intro b hb
      rcases orElse_ok.1 hb with hb | ⟨-, hb⟩
      · obtain ⟨r, hr, rfl⟩ := map_ok.1 hb
        cases first_conflict (quoted_first (quoted_sound hr).1) h2
      · obtain ⟨r, hr, rfl⟩ := map_ok.1 hb
        cases first_conflict (listIs_first (fun _ _ _ => numericHead_first) (extractMultiple_listIs numericPoint_level hr)) h2
    | amendment a => exact a.elim
  nested id prev ls cs w more h := by
    cases cs with
    | quotedBlock l => exact quoted_nested h.1
    | numericPoint l => exact listIs_nested h
    | alphabeticPoint l => exact listIs_nested h
    | amendment a => exact a.elim

theorem paragraph_level : LevelExact paragraphParser context ParagraphHead (ParagraphIs context) where
  head := Props.C27_paragraph_header_iff
  noErr l := (Props.C27_never_err l none).1
  quotes := paragraphHead_quotes
  sound := parse_elementIs paragraph_children
  complete _ _ _ _ _ h := parse_complete paragraph_children h

end HunLaw
