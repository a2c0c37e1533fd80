import Verif.Lemmas.WrittenGroup

/-! There are no quotation marks in references. -/

set_option autoImplicit false

namespace HunLaw.Grammar

open HunLaw Spec P

variable {α : Type}

/-- There is no opening quotation mark in the text. -/
def QuoteFree (s : Str) : Prop := '„' ∉ s

instance (s : Str) : Decidable (QuoteFree s) := inferInstanceAs (Decidable ('„' ∉ s))

theorem QuoteFree.append {s t : Str} (h1 : QuoteFree s) (h2 : QuoteFree t) : QuoteFree (s ++ t) := fun h =>
  (List.mem_append.1 h).elim h1 h2

theorem QuoteFree.cons {c : Char} {t : Str} (h1 : c ≠ '„') (h2 : QuoteFree t) : QuoteFree (c :: t) := fun h =>
  (List.mem_cons.1 h).elim (fun e => h1 e.symm) h2

theorem QuoteFree.flatMap {l : List α} {f : α → Str} (h : ∀ x ∈ l, QuoteFree (f x)) : QuoteFree (l.flatMap f) := fun hm => by
  obtain ⟨x, hx, hm⟩ := List.mem_flatMap.1 hm
  exact h x hx hm

theorem quoteFree_dec (n : Nat) : QuoteFree (dec n) := fun h => by
  have := dec_digits n _ h
  revert this; decide

theorem quoteFree_display : ∀ c : HunChar, QuoteFree c.display := by unfold QuoteFree; decide +kernel

theorem quoteFree_displayUpper : ∀ c : HunChar, QuoteFree c.displayUpper := by unfold QuoteFree; decide +kernel

theorem quoteFree_slash (i : NumericId) : QuoteFree i.displaySlash := by
  rw [displaySlash_eq]
  refine (quoteFree_dec _).append ?_
  cases i.suffix with
  | none => simp [slashed, QuoteFree]
  | some c => exact .cons (by decide) (quoteFree_displayUpper c)

theorem quoteFree_numeric (i : NumericId) : QuoteFree i.display := by
  rw [display_numeric]
  refine (quoteFree_dec _).append ?_
  cases i.suffix with
  | none => simp [lettered, QuoteFree]
  | some c => exact quoteFree_display c

theorem quoteFree_article (a : ArticleId) : QuoteFree a.display := by
  rw [display_article]
  refine QuoteFree.append ?_ (quoteFree_slash _)
  cases a.book with
  | none => simp [bookText, QuoteFree]
  | some b => exact (quoteFree_dec _).append (by simp [QuoteFree])

theorem quoteFree_prefixed (i : PrefixedId) : QuoteFree i.display := by
  unfold PrefixedId.display
  cases i.pfx with
  | none => exact quoteFree_display _
  | some c => exact (quoteFree_display c).append (quoteFree_display _)

theorem quoteFree_dash {d : Char} (h : d ∈ dashes) : d ≠ '„' := (by decide : ∀ d ∈ dashes, d ≠ '„') d h

theorem quoteFree_separator {s : Str} (h : s ∈ separators) : QuoteFree s := (by decide +kernel : ∀ s ∈ separators, '„' ∉ s) s h

theorem quoteFree_ending {e : Str} (h : Ending e) : QuoteFree e := fun hm => absurd (h _ hm) (by decide)

theorem quoteFree_words {span : Span α → Str} {word : Str} {l : Listing α} {p : Span α → Prop} (hl : l.Fits p)
    (hspan : ∀ s, p s → QuoteFree (span s)) (hw : QuoteFree word) (he : QuoteFree l.ending) : QuoteFree (l.words span word).text := by
  refine QuoteFree.append (QuoteFree.append (hspan _ hl.1) (.flatMap fun x hx => ?_)) (hw.append he)
  obtain ⟨y, hy, rfl⟩ := List.mem_map.1 hx
  exact (quoteFree_separator (hl.2 y hy).1).append (hspan _ (hl.2 y hy).2)

theorem quoteFree_intercalate {l : List Str} (h : ∀ x ∈ l, QuoteFree x) : QuoteFree (List.intercalate str!" " l) := by
  induction l with
  | nil => simp [QuoteFree, List.intercalate]
  | cons x l ih =>
    cases l with
    | nil => simpa [List.intercalate] using h x (List.mem_cons_self ..)
    | cons y l =>
      have := (h x (List.mem_cons_self ..)).append (QuoteFree.cons (c := ' ') (by decide) (ih fun z hz => h z (List.mem_cons_of_mem _ hz)))
      simpa [List.intercalate] using this

theorem phrase_quoteFree {w : Phrase} (hw : w.Usual) : QuoteFree w.text := by
  refine quoteFree_intercalate fun x hx => ?_
  obtain ⟨y, hy, rfl⟩ := List.mem_map.1 hx
  simp only [Phrase.words, List.mem_append, List.mem_map, Option.mem_toList] at hy
  have one : ∀ s : Str, QuoteFree s → ∀ c, c ≠ '„' → QuoteFree (s ++ [c]) := fun s h c hc => h.append (.cons hc (by simp [QuoteFree]))
  rcases hy with ((((⟨l, h, rfl⟩ | ⟨l, h, rfl⟩) | ⟨l, h, rfl⟩) | ⟨l, h, rfl⟩) | ⟨l, h, rfl⟩) | ⟨l, h, rfl⟩
  · have h1 := hw.article l h
    refine quoteFree_words h1.1 (fun s hs => ?_) (by decide) ?_
    · cases s with
      | one a => exact one _ (quoteFree_article a) _ (by decide)
      | upTo d a b => exact one _ ((quoteFree_article a).append (.cons (quoteFree_dash hs.1) (quoteFree_article b))) _ (by decide)
    · rcases h1.2 with e | ⟨e, h2, -, h3⟩
      · rw [e]; simp [QuoteFree]
      · rw [h2]; exact .cons (by decide) (quoteFree_ending h3)
  · have h1 := hw.paragraph l h
    refine quoteFree_words h1.1 (fun s hs => ?_) (by decide) (quoteFree_ending h1.2)
    cases s with
    | one a => exact .cons (by decide) (one _ (quoteFree_numeric a) _ (by decide))
    | upTo d a b =>
      have := (QuoteFree.cons (c := '(') (by decide) (one _ (quoteFree_numeric a) ')' (by decide))).append
        (QuoteFree.cons (quoteFree_dash hs.1) (QuoteFree.cons (c := '(') (by decide) (one _ (quoteFree_numeric b) ')' (by decide))))
      simpa [paragraphSpan] using this
  · have h1 := hw.numericPoint l h
    refine quoteFree_words h1.1 (fun s hs => ?_) (by decide) (quoteFree_ending h1.2)
    cases s with
    | one a => exact one _ (quoteFree_numeric a) _ (by decide)
    | upTo d a b => exact one _ ((quoteFree_numeric a).append (.cons (quoteFree_dash hs.1) (quoteFree_numeric b))) _ (by decide)
  · have h1 := hw.alphabeticPoint l h
    refine quoteFree_words h1.1 (fun s hs => ?_) (by decide) (quoteFree_ending h1.2)
    cases s with
    | one a => exact one _ (quoteFree_display a) _ (by decide)
    | upTo d a b =>
      have := (one _ (quoteFree_display a) ')' (by decide)).append (QuoteFree.cons (quoteFree_dash hs.1) (one _ (quoteFree_display b) ')' (by decide)))
      simpa [letterSpan] using this
  · have h1 := hw.numericSubpoint l h
    refine quoteFree_words h1.1 (fun s hs => ?_) (by decide) (quoteFree_ending h1.2)
    cases s with
    | one a => exact one _ (quoteFree_numeric a) _ (by decide)
    | upTo d a b => exact one _ ((quoteFree_numeric a).append (.cons (quoteFree_dash hs.1) (quoteFree_numeric b))) _ (by decide)
  · have h1 := hw.alphabeticSubpoint l h
    refine quoteFree_words h1.1 (fun s hs => ?_) (by decide) (quoteFree_ending h1.2)
    cases s with
    | one a => exact one _ (quoteFree_prefixed a) _ (by decide)
    | upTo d a b =>
      have := (one _ (quoteFree_prefixed a) ')' (by decide)).append (QuoteFree.cons (quoteFree_dash hs.1) (one _ (quoteFree_prefixed b) ')' (by decide)))
      simpa [prefixedSpan] using this

end HunLaw.Grammar
