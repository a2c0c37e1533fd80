import Verif.Lemmas.Announced
import Verif.Lemmas.Builder

/-! Property C103: special phrases are recognised only in texts which announce them. -/

set_option autoImplicit false

namespace HunLaw.Props

open HunLaw Spec Semantic Grammar

/-- The words of the structure are those of the phrase made from it. -/
theorem announces_of_words {c : Cache} {x : Root} {p : SpecialPhrase} {s : Str}
    (h : extractSpecialPhrase c x = some (some p)) (hw : RootWords x s) : Announces p s := by
  cases x with
  | simple l => simp [extractSpecialPhrase] at h
  | blockAmendment x =>
    obtain ⟨q, h1, h2⟩ := bind_some_split h
    cases h2
    obtain ⟨refs, -, h1⟩ := bind_some_split h1
    obtain ⟨position, -, h1⟩ := bind_some_split h1
    unfold blockAmendmentPhrase at h1
    split at h1
    · obtain ⟨parent, -, h1⟩ := bind_some_split h1
      cases h1
      refine ⟨hw.1, ?_⟩
      have := hw.2
      unfold BlockEnd at this
      split at this
      · rename_i hi; rw [if_pos hi]; exact this
      · rename_i hi; rw [if_neg hi]
        exact ⟨contains_mono (fun _ h => List.mem_append_left _ h) this.1,
          endsWith_mono (colon_mono fun e he => by
            rcases List.mem_append.1 he with he | he
            · exact List.mem_append_left _ (List.mem_append_left _ he)
            · exact List.mem_append_right _ he) this.2⟩
    · cases h1
      exact hw
  | blockAmendmentStructural x =>
    obtain ⟨q, h1, h2⟩ := bind_some_split h
    cases h2
    obtain ⟨act, -, h1⟩ := bind_some_split h1
    obtain ⟨parent, -, h1⟩ := bind_some_split h1
    obtain ⟨r, -, h1⟩ := bind_some_split h1
    obtain ⟨r, -, h1⟩ := bind_some_split h1
    cases h1
    exact hw
  | blockAmendmentWithSubtitle x =>
    obtain ⟨q, h1, h2⟩ := bind_some_split h
    cases h2
    obtain ⟨e, -, h1⟩ := bind_some_split h1
    obtain ⟨parent, -, h1⟩ := bind_some_split h1
    obtain ⟨act, -, h1⟩ := bind_some_split h1
    cases h1
    exact hw
  | enforcementDate x =>
    obtain ⟨q, h1, h2⟩ := bind_some_split h
    cases h2
    obtain ⟨refs, -, h1⟩ := bind_some_split h1
    obtain ⟨st, -, h1⟩ := bind_some_split h1
    obtain ⟨d, -, h1⟩ := bind_some_split h1
    obtain ⟨r, hr, h1⟩ := bind_some_split h1
    cases h1
    refine ⟨hw.1, hw.2.1, ?_⟩
    have := hw.2.2
    split at this
    · rename_i hi
      rw [hi] at hr
      cases hr
      rw [if_pos rfl]; exact this
    · rename_i hi
      cases hx : x.inlineRepeal with
      | none => exact absurd hx hi
      | some d =>
        rw [hx] at hr
        obtain ⟨d', -, hr⟩ := bind_some_split hr
        cases hr
        rw [if_neg (by simp)]; exact this
  | repeal x =>
    obtain ⟨q, h1, h2⟩ := bind_some_split h
    cases h2
    unfold convertRepeal at h1
    split at h1
    · obtain ⟨l, -, h1⟩ := bind_some_split h1
      cases h1
      exact ⟨hw.1, hw.2.1⟩
    · rename_i hx
      obtain ⟨l, -, h1⟩ := bind_some_split h1
      cases h1
      have := hw.2.2 (by simpa using hx)
      exact ⟨this.1, this.2, .inr ⟨hw.1, hw.2.1⟩⟩
  | textAmendment x =>
    obtain ⟨q, h1, h2⟩ := bind_some_split h
    cases h2
    exact ⟨hw.2.1.1.1, hw.2.1.1.2, .inl ⟨hw.1, hw.2.1.2, hw.2.2⟩⟩

/-- C103: if a special phrase is found in an element, the text of the element begins and ends with the words of its
kind. -/
theorem C103_announced (a a' : Adder) (middle : Str) (info : SemanticInfo) (p : SpecialPhrase)
    (h : a.extract middle = (a', some info)) (hp : info.specialPhrase = some p) :
    Announces p (assemble a.pre middle a.post) := by
  unfold Adder.extract at h
  split at h
  · cases h
  · rename_i r hr
    split at h
    · cases h
    · rename_i new hn
      obtain ⟨-, h⟩ := Prod.mk.inj h
      obtain ⟨refs, -, h⟩ := bind_some_split h
      obtain ⟨phrase, h1, h⟩ := bind_some_split h
      cases h
      simp only at hp
      subst hp
      exact announces_of_words h1 (parse_words hr)

/-- Only the phrase found in an element which stands by itself. -/
def phraseOf (middle : Str) : Option SpecialPhrase :=
  ((Adder.new ⟨[], false⟩).extract middle).2.bind (·.specialPhrase)

/-- What kind of phrase it is, and whether a block amendment is an insertion. -/
def phraseKind : SpecialPhrase → Nat × Bool
  | .blockAmendment _ insertion => (0, insertion)
  | .structuralBlockAmendment _ insertion => (1, insertion)
  | .enforcementDate d => (2, d.inlineRepeal.isSome)
  | .repeal _ => (3, false)
  | .textAmendment _ => (4, false)

example : (phraseOf str!"A 2012. évi C. törvény 3. § (1) bekezdése helyébe a következő rendelkezés lép:").map phraseKind =
    some (0, false) := by decide +kernel
example : (phraseOf str!"A 2012. évi C. törvény 3. §-a a következő (1a) bekezdéssel egészül ki:").map phraseKind =
    some (0, true) := by decide +kernel
example : (phraseOf str!"A 2012. évi C. törvény a következő 3/A. alcímmel egészül ki:").map phraseKind =
    some (1, true) := by decide +kernel
example : (phraseOf str!"Ez a törvény 2024. január 1-jén lép hatályba.").map phraseKind =
    some (2, false) := by decide +kernel
example : (phraseOf str!"Hatályát veszti a 2012. évi C. törvény 3. §-a.").map phraseKind =
    some (3, false) := by decide +kernel
example : (phraseOf str!"A 2012. évi C. törvény 3. §-ában az „egy” szövegrész helyébe a „két” szöveg lép.").map phraseKind =
    some (4, false) := by decide +kernel

/-- By the theorem no amendment is found in a text which does not end with a colon. -/
example : (phraseOf str!"A 2012. évi C. törvény 3. § (1) bekezdése helyébe a következő rendelkezés lép.").map phraseKind =
    none := by decide +kernel

end HunLaw.Props
