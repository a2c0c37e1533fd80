import Verif.Lemmas.SubtitleSentence

/-! Sentences which amend the structure of an act at a place beside an article. -/

set_option autoImplicit false

namespace HunLaw.Grammar

open HunLaw P Spec

variable {α β : Type} {G : St → Prop} {known : List Str}

/-- What follows does not end an amendment. -/
structure NotEnd (S : Str) : Prop where
  noWs : NoWs S
  head : Head (fun c => c ≠ 'c' ∧ c ≠ 'é') S
  suffix : ∀ n, Fails (call amendmentSuffix) n (' ' :: S)
  withSubtitle : ∀ n, Fails (call amendmentSuffixWithSubtitle) n (' ' :: S)

theorem notEnd_place {p : Place} {b : Option NumericId} {e : StructuralRefParent} {o : Bool} (hp : p.Means b e o) (R : Str) :
    NotEnd (p.text ++ R) := by
  have hw := place_noWs hp R
  have hn := place_not hp R
  have hhe : ∀ {γ : Type} (g : Unit → P γ) n, Fails (tok str!"helyébe" >>= g) n (p.text ++ R) := fun g n =>
    Fails.bind (Fails.call_noWs hw fun n => Fails.lit (not_prefix_of_head (by decide) fun e => hn _ e.symm (by decide)))
  have hfo : ∀ {γ : Type} (g : Unit → P γ) n, Fails (call theFollowing >>= g) n (p.text ++ R) := fun g n =>
    Fails.bind (Fails.call_noWs hw fun n => fails_following (hn.mono fun c hc => by
      constructor <;> (rintro rfl; exact hc (by decide))))
  refine ⟨hw, hn.mono fun c hc => ⟨?_, ?_⟩, fun n => Fails.call_space hw fun n => Fails.alt (hhe _ n) (Fails.alt (hfo _ n) (hfo _ n)),
    fun n => Fails.call_space hw fun n => hhe _ n⟩ <;> (rintro rfl; exact hc (by decide))

theorem notEnd_following {p : Place} {b : Option NumericId} {e : StructuralRefParent} {o : Bool} (hp : p.Means b e o) {f : Str}
    (hf : Following f) (R : Str) : NotEnd (f ++ (' ' :: p.text ++ R)) := by
  have hw := following_noWs hf (' ' :: p.text ++ R)
  have hh := following_head hf (' ' :: p.text ++ R)
  have hhe : ∀ {γ : Type} (g : Unit → P γ) n, Fails (tok str!"helyébe" >>= g) n (f ++ (' ' :: p.text ++ R)) := fun g n =>
    Fails.bind (Fails.call_noWs hw fun n => Fails.lit (not_prefix_of_head (by decide) fun e => by
      have := hh _ e.symm; cases this))
  have hfo : ∀ n, Reads (call theFollowing) n f (' ' :: p.text ++ R) () := fun n =>
    Reads.call hw (reads_following hf (space_notLower _))
  have hpn : ∀ w : Str, w.head? = some 's' → ∀ n, Fails (tok w) n (' ' :: p.text ++ R) := fun w hw n =>
    fails_tok_space (s := p.text ++ R) (place_noWs hp _) (not_prefix_of_head (by rintro rfl; cases hw) fun e => by
      rw [hw] at e; exact (place_not hp _ _ e.symm) (by decide))
  refine ⟨hw, hh.mono fun c hc => by subst hc; decide, fun n => Fails.call_space hw fun n => ?_, fun n => Fails.call_space hw fun n => hhe _ n⟩
  exact Fails.alt (hhe _ n) (Fails.alt (Fails.bind_of (hfo _) (hpn _ rfl _)) (Fails.bind_of (hfo _) (hpn _ rfl _)))

/-- A part before something which does not end an amendment is not the amendment of a subtitle. -/
theorem place_notSubtitle {q : Place} {b : Option NumericId} {e : StructuralRefParent} {o : Bool} (hq : q.Means b e o) {S : Str}
    (hS : NotEnd S) (n : Nat) : Fails subtitleAmendment n (' ' :: q.text ++ (' ' :: S)) := by
  have hins : ∀ {γ : Type} (g : Unit → P γ) n, Fails (call insertionToken >>= g) n (' ' :: q.text ++ (' ' :: S)) := fun g n =>
    Fails.bind (Fails.before (s := q.text ++ (' ' :: S)) (place_noWs hq _) fun n => place_noInsertion hq _)
  rcases place_subtitleBefore hq hS.noWs hS.head with ⟨-, h⟩ | ⟨r, -, h⟩
  · have h' : ∀ n, Fails (call referenceWithSubtitle) n (' ' :: q.text ++ (' ' :: S)) := fun n => Fails.call_space (place_noWs hq _) h
    exact Fails.alt (Fails.bind (h' _)) (Fails.alt (Fails.bind (h' _)) (hins _ _))
  · have h' : ∀ n, Reads (call referenceWithSubtitle) n (' ' :: q.text) (' ' :: S) r := fun n => Reads.call_space (place_noWs hq _) (h _)
    exact Fails.alt (Fails.bind_of (h' _) (Fails.bind (hS.suffix _))) (Fails.alt (Fails.bind_of (h' _) (Fails.bind (hS.withSubtitle _))) (hins _ _))

/-- A book is not the amendment of a subtitle either. -/
theorem book_notSubtitle {k : BookText} {i : NumericId} (hk : k.Means i) {f : Str} (hf : Following f) (R : Str) (n : Nat) :
    Fails subtitleAmendment n (' ' :: k.text ++ (' ' :: f ++ R)) := by
  have hkw := bookText_noWs hk (' ' :: f ++ R)
  obtain ⟨c, r, ec, hc⟩ := book_head hk (' ' :: f ++ R)
  have hart : NoArticle (k.text ++ (' ' :: f ++ R)) := by
    rw [ec]
    exact noArticle_word (noWs_cons (upper_noWs hc)) (.cons ⟨(upper_not hc).2.1, by rintro rfl; exact absurd hc (by decide)⟩)
  have hins : ∀ n, Fails (call insertionToken) n (k.text ++ (' ' :: f ++ R)) := fun n =>
    fails_insertionToken hkw ((book_not hk _).mono fun c hc => by
      refine ⟨?_, ?_, ?_, ?_, ?_⟩ <;> (rintro rfl; exact hc (by decide)))
  have hws : ∀ n, Fails (call referenceWithSubtitle) n (' ' :: k.text ++ (' ' :: f ++ R)) := fun n =>
    Fails.call_space (s := k.text ++ (' ' :: f ++ R)) hkw fun n => fails_withSubtitle hart fun n => by
      rw [ec]
      exact fails_subtitleName (noWs_cons (upper_noWs hc)) (.cons (upper_not hc).2.1) (.cons (upper_not hc).2.2.2)
        (not_prefix_of_head (by decide) (by rintro e; simp at e; subst e; exact absurd hc (by decide)))
  exact Fails.alt (Fails.bind (hws _)) (Fails.alt (Fails.bind (hws _)) (Fails.bind (Fails.before (s := k.text ++ (' ' :: f ++ R)) hkw hins)))

/-- How a sentence which amends the structure beside an article is parsed. -/
theorem parse_beside {A I S : Str} {a : ActReference} {b : Beside} {r : Option StructuralReference × StructuralReference × Option Str × Bool}
    (hG : G ⟨known, []⟩) (hA : A ∈ articles) (hb : b.Usual)
    (hi : ReadsG G titledActReference (byteLen A) I (' ' :: b.text ++ (' ' :: S)) a)
    (h1 : ∀ n, Fails subtitleAmendment n (' ' :: S)) (h2 : ∀ n, Reads structuralAmendment n (' ' :: S) [] r) :
    parse (A ++ (I ++ (' ' :: b.text ++ (' ' :: S)))) known = some (.blockAmendmentStructural ⟨a, r.1, r.2.1, r.2.2.1, r.2.2.2⟩) := by
  have e : ' ' :: b.text ++ (' ' :: S) = ' ' :: (b.the ++ (b.article.text ++ (' ' :: b.word ++ (' ' :: S)))) := by simp [Beside.text]
  have hno : ∀ n, Fails (call structuralReference) n (' ' :: b.text ++ (' ' :: S)) := fun n => by
    rw [e]; exact fails_structuralOne hb.the hb.article (tells_beside hb _).after.next n
  have hbody : ∀ n, FailsG G (amendedOnly <|> insertedOnly <|> amendedAndInserted) n (' ' :: b.text ++ (' ' :: S)) := fun n => by
    rw [e]; exact fails_bodyArticle hb.the hb.article (tells_beside hb _) n
  refine parse_of_root hG (ReadsG.right (by
    rw [List.append_nil]
    exact fails_block (t := []) hA hi (fun n => Reads.opt_none (hno n)) fun n => hbody n) (ReadsG.right ?_ (ReadsG.left ?_)))
  · rw [List.append_nil]
    refine fails_entire (article_noWs hA _) (fails_begin hA hi fun n => ?_)
    obtain ⟨y, -, hy⟩ := reads_beside hb (S := S) n
    refine FailsG.bind_of (t := []) (ReadsG.lift (Reads.opt_none (hno n))) ?_
    exact FailsG.bind_of (ReadsG.lift (Reads.opt_some hy)) (FailsG.bind (FailsG.lift (h1 _)))
  · refine reads_entire (article_noWs hA _) (reads_begin hA hi fun n => ?_)
    obtain ⟨y, -, hy⟩ := reads_beside hb (S := S) n
    refine ReadsG.bind (ReadsG.lift (by rw [List.append_nil]; exact Reads.opt_some hy)) ?_
    exact ReadsG.map (g := fun r => (⟨a, r.1, r.2.1, r.2.2.1, r.2.2.2⟩ : BlockAmendmentStructural)) (ReadsG.lift (h2 _))

end HunLaw.Grammar
