import Verif.Props.Passage
import Verif.Lemmas.IntroducedIn

/-! Property C130: abbreviations which are introduced in running text. -/

set_option autoImplicit false

namespace HunLaw.Props

open HunLaw Spec Semantic Grammar P

/-- C130: in running text in the usual form, where abbreviations of acts are introduced, exactly those abbreviations are
recorded, with the acts they are for, in the order of the text. The references found are those which are meant, each at
its place; an abbreviation names its act right after it has been introduced.

The abbreviations are only in the text where they name the act of a group, after they have been introduced, and where
they are introduced. No other abbreviation is introduced by the text, and no special phrase is announced by it. If an
abbreviation is introduced for two acts, it is the last one everywhere; see `C130_again`. -/
theorem C130_introduced (c : Cache) (p : Passage) (hp : p.Usual)
    (habbr : clear (c.allAbbreviations ++ p.new.map Prod.fst) p.items p.after) (hname : nameable c.allAbbreviations p.items)
    (hact : ∀ x ∈ p.items, ∀ g s a, x.2 = .group g → g.act = some (.short s a) → (lastDefined s p.new).or (c.resolve s) = some a)
    (hsome : ∃ ch ∈ p.text, ch ≠ ' ') (hnew : ∀ a, Introduces p.text a → a ∈ p.new.map Prod.fst) (hplain : ∀ q, ¬ Announces q p.text) :
    ∃ r refs, parse p.text c.allAbbreviations = some r ∧ getNewAbbreviations r = some p.new ∧
      outgoingRefs (c.addMultiple p.new) r = some refs ∧
      refs.map (·.reference) = p.meant ∧ ranges refs = markedRanges 0 p.pieces := by
  obtain ⟨r, refs, h1, h2, h3, -, h4⟩ := passage_read c p hp habbr hname hact hsome hnew hplain
  exact ⟨r, refs, h1, h2, h3, h4⟩

/-! ### an example -/

/-- "Kbt. 4. §-a" -/
def articleOfNew : PhraseGroup :=
  ⟨some (.short str!"Kbt." ⟨⟨2015, by decide⟩, ⟨143, by decide⟩⟩), [(str!" ", { article := some ⟨.one ⟨none, .ofNum 4⟩, [], str!"-a"⟩ })]⟩

/-- A text which uses an abbreviation after it has been introduced. -/
def newPassage : Passage where
  items := [(str!"A ", .group writtenArticle), (str!" és a ", .introducing ⟨⟨2015, by decide⟩, ⟨143, by decide⟩⟩ str!"törvény" true str!"Kbt." articleOfAct.references),
    (str!", valamint a ", .group articleOfNew)]
  after := str!" szerint;"

example : newPassage.text = str!"A 4. §-a és a 2015. évi CXLIII. törvény (a továbbiakban: Kbt.) 4. §-a, valamint a Kbt. 4. §-a szerint;" := by
  decide +kernel

/-- The colon can be left out. -/
example : (PassageItem.introducing ⟨⟨2015, by decide⟩, ⟨143, by decide⟩⟩ str!"törvény" false str!"Kbt." articleOfAct.references).text =
    str!"2015. évi CXLIII. törvény (a továbbiakban Kbt.) 4. §-a" := by decide +kernel

example : newPassage.new = [(str!"Kbt.", ⟨⟨2015, by decide⟩, ⟨143, by decide⟩⟩)] := rfl

theorem articleOfNew_usual : articleOfNew.Usual where
  act a h := by cases h; exact ⟨by unfold Ordinary; decide, 'K', rfl, by decide⟩
  references x hx := articleOfAct_usual.references x hx
  first x hx := by simp [articleOfNew] at hx; subst hx; simp [articleOfNew]
  others x hx := by simp [articleOfNew] at hx
  named := .inl (by simp [articleOfNew])

theorem newPassage_usual : newPassage.Usual := by
  refine ⟨by unfold Ordinary; decide, .inr ⟨str!"A", rfl⟩, writtenArticle_usual, nofun, ⟨articleOfAct_usual, by decide, 'K', rfl, by decide⟩,
    ⟨by unfold Ordinary; decide, .inr (fun c h => by cases h; decide), .inl ⟨⟨str!" és a", rfl⟩, by simp⟩, .inl (by decide +kernel)⟩,
    articleOfNew_usual, ⟨by unfold Ordinary; decide, .inr (fun c h => by cases h; decide), .inl ⟨⟨str!", valamint a", rfl⟩, by simp⟩,
      .inl ⟨by decide +kernel, _, rfl, fun s x h => by cases h; exact ⟨'K', rfl, by decide⟩⟩⟩,
    by unfold Ordinary; decide, .inr (fun c h => by cases h; decide), trivial⟩

theorem newPassage_introduces {a : Str} (h : Introduces newPassage.text a) : a ∈ newPassage.new.map Prod.fst := by
  have hall : ∀ b ∈ introducedIn newPassage.text, b ∈ newPassage.new.map Prod.fst := by decide +kernel
  exact hall a (introduces_mem h)

/-- All conditions of the theorem are met by the example, and the references are well formed. -/
example : clear ((⟨[], false⟩ : Cache).allAbbreviations ++ newPassage.new.map Prod.fst) newPassage.items newPassage.after ∧
    nameable (⟨[], false⟩ : Cache).allAbbreviations newPassage.items ∧
    (∀ x ∈ newPassage.items, ∀ g s a, x.2 = .group g → g.act = some (.short s a) →
      (lastDefined s newPassage.new).or ((⟨[], false⟩ : Cache).resolve s) = some a) ∧
    (∃ ch ∈ newPassage.text, ch ≠ ' ') ∧ (∀ a, Introduces newPassage.text a → a ∈ newPassage.new.map Prod.fst) ∧
    (∀ p, ¬ Announces p newPassage.text) ∧ (∀ x ∈ writtenArticle.meant ++ articleOfAct.meant ++ articleOfNew.meant, Ref.tryFrom x = some x) := by
  have hb : ∀ b ∈ (⟨[], false⟩ : Cache).allAbbreviations ++ newPassage.new.map Prod.fst, b = str!"Kbt." := by decide
  refine ⟨⟨fun x y e hy b h => ?_, fun b h hp => ?_, ⟨fun x y e hy b h => ?_, fun b h hp => ?_, ⟨fun x y e hy b h => ?_, fun b h _ => ?_,
    fun x y e b h hp => ?_, fun x y e hy b h => ?_⟩, fun x y e hy b h => ?_⟩, fun x y e hy b h => ?_⟩, ?_, ?_, ?_, fun a => newPassage_introduces, ?_, ?_⟩
  · rw [hb b h]; exact clear_words (by decide +kernel) x y e hy
  · rw [hb b h, ← List.isPrefixOf_iff_prefix] at hp; exact absurd hp (by decide +kernel)
  · rw [hb b h]; exact clear_words (by decide +kernel) x y e hy
  · rw [hb b h, ← List.isPrefixOf_iff_prefix] at hp; exact absurd hp (by decide +kernel)
  · rw [hb b h]; exact clear_words (by decide +kernel) x y e hy
  · rw [hb b h]; exact ⟨_, _, rfl, rfl⟩
  · rw [hb b h] at hp
    have : 'K' ∈ newPassage.after := by rw [e]; exact List.mem_append_right _ (hp.subset (by simp))
    revert this; decide
  · rw [hb b h]; exact clear_words (by decide +kernel) x y e hy
  · rw [hb b h]; exact clear_words (by decide +kernel) x y e hy
  · rw [hb b h]; exact clear_words (by decide +kernel) x y e hy
  · refine ⟨fun g s a h1 h2 => ?_, fun g s a h1 h2 => ?_, fun g s a h1 h2 => ?_, trivial⟩
    · cases h1; cases h2
    · cases h1
    · cases h1; cases h2; decide
  · intro x hx g s a h1 h2
    simp only [newPassage, List.mem_cons, List.not_mem_nil, or_false] at hx
    rcases hx with rfl | rfl | rfl <;> cases h1
    · cases h2
    · cases h2; decide
  · exact ⟨'A', by decide +kernel, by decide⟩
  · intro p h
    obtain ⟨c, h1, h2⟩ := announces_last h
    rw [show newPassage.text.getLast? = some ';' from by decide +kernel] at h1
    cases h1
    exact absurd h2 (by decide)
  · decide +kernel

/-! ### an abbreviation which is introduced again -/

/-- An abbreviation which is introduced for a second act in the same sentence means the second one also before it. -/
theorem C130_again : ∃ r,
    parse str!"a 2012. évi I. törvény (a továbbiakban: Tv.) 4. §-a, a Tv. 5. §-a és a 2013. évi V. törvény (a továbbiakban: Tv.) 6. §-a szerint;" [] = some r ∧
    getNewAbbreviations r = some [(str!"Tv.", ⟨⟨2012, by decide⟩, ⟨1, by decide⟩⟩), (str!"Tv.", ⟨⟨2013, by decide⟩, ⟨5, by decide⟩⟩)] ∧
    (outgoingRefs ((⟨[], false⟩ : Cache).addMultiple [(str!"Tv.", ⟨⟨2012, by decide⟩, ⟨1, by decide⟩⟩), (str!"Tv.", ⟨⟨2013, by decide⟩, ⟨5, by decide⟩⟩)]) r).map
      (fun l => l.map fun x => x.reference.act) = some [some ⟨⟨2012, by decide⟩, ⟨1, by decide⟩⟩, some ⟨⟨2012, by decide⟩, ⟨1, by decide⟩⟩,
        some ⟨⟨2013, by decide⟩, ⟨5, by decide⟩⟩, some ⟨⟨2013, by decide⟩, ⟨5, by decide⟩⟩,
        some ⟨⟨2013, by decide⟩, ⟨5, by decide⟩⟩, some ⟨⟨2013, by decide⟩, ⟨5, by decide⟩⟩] := by
  have h : ((parse str!"a 2012. évi I. törvény (a továbbiakban: Tv.) 4. §-a, a Tv. 5. §-a és a 2013. évi V. törvény (a továbbiakban: Tv.) 6. §-a szerint;" []).map fun r =>
    (getNewAbbreviations r, (outgoingRefs ((⟨[], false⟩ : Cache).addMultiple [(str!"Tv.", ⟨⟨2012, by decide⟩, ⟨1, by decide⟩⟩), (str!"Tv.", ⟨⟨2013, by decide⟩, ⟨5, by decide⟩⟩)]) r).map
      (fun l => l.map fun x => x.reference.act))) = some (some [(str!"Tv.", ⟨⟨2012, by decide⟩, ⟨1, by decide⟩⟩), (str!"Tv.", ⟨⟨2013, by decide⟩, ⟨5, by decide⟩⟩)],
        some [some ⟨⟨2012, by decide⟩, ⟨1, by decide⟩⟩, some ⟨⟨2012, by decide⟩, ⟨1, by decide⟩⟩,
        some ⟨⟨2013, by decide⟩, ⟨5, by decide⟩⟩, some ⟨⟨2013, by decide⟩, ⟨5, by decide⟩⟩,
        some ⟨⟨2013, by decide⟩, ⟨5, by decide⟩⟩, some ⟨⟨2013, by decide⟩, ⟨5, by decide⟩⟩]) := by decide +kernel
  obtain ⟨r, h1, h2⟩ := Option.map_eq_some_iff.1 h
  simp only [Prod.mk.injEq] at h2
  exact ⟨r, h1, h2⟩

end HunLaw.Props
