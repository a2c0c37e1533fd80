import Verif.Lemmas.MkAct
import Verif.Lemmas.Fixups
import Verif.Props.Line

/-! Properties C41, C61 and C62: acts in a gazette, dates. -/

set_option autoImplicit false

namespace HunLaw.Props
open HunLaw HunLaw.Spec Re

/-! ### C41 -/

/-- C41: the lines of the acts section are consecutive regions, one for each act extracted, and some rest.
Each act has the identifier in the title of its region, the subject in the lines after it, and the lines up to
the signatures as its body, without the footnote and the doubled empty lines. -/
theorem C41_regions (pages : List Page) (acts : List ActRawText) (h : parseMkPagesIntoActs pages = some acts) :
    ∃ date regions rest, (∃ cover, pages.head? = some cover ∧ parseMkCoverPage cover = some date) ∧
      actsLines [] pages = regions.flatMap Region.lines ++ rest ∧
      List.Forall₂ (fun r (a : ActRawText) => ∃ body, a.body = removeDoubleEmptyLines body ∧
        IsAct date r a.identifier a.subject a.publicationDate body) regions acts := by
  unfold parseMkPagesIntoActs at h
  match pages, h with
  | cover :: p1 :: ps, h =>
    simp only at h
    cases hc : parseMkCoverPage cover with
    | none => rw [hc] at h; simp at h
    | some date =>
      rw [hc] at h
      simp only [Option.some.injEq] at h
      have ht : Tracks ⟨Extractor.new date, false, false⟩ [] := ⟨by simp [inActs_nil], by simp⟩
      have h1 := tracks_pages (cover :: p1 :: ps) ht
      have h2 := ext_all (actsLines [] (cover :: p1 :: ps)) (ext_new date)
      rw [← h1] at h2
      obtain ⟨_, regions, rest, e1, e2, _⟩ := h2
      refine ⟨date, regions, rest, ⟨cover, rfl, hc⟩, by simpa using e1, ?_⟩
      rw [← h, List.forall₂_map_right_iff]
      exact e2.imp fun r a hra => ⟨a.body, rfl, hra⟩

theorem actsLinesOfPage_sublist (before : List Line) (p : Page) : (actsLinesOfPage before p).Sublist p := by
  induction p generalizing before with
  | nil => exact .slnil
  | cons l ls ih =>
    simp only [actsLinesOfPage]
    split
    · exact (ih _).cons_cons l
    · exact (ih _).cons l

theorem region_body_sublist {date : Date} {r : Region} {id : ActId} {subject : Str} {d : Date}
    {body : List Line} (h : IsAct date r id subject d body) : body.Sublist r.lines := by
  obtain ⟨_, _, _, _, _, kept, b, n, s, hk, e, _⟩ := h
  have h1 : body.Sublist kept := by rw [e]; exact List.sublist_append_left _ _
  have h2 : kept.Sublist r.body := by
    rcases hk with rfl | ⟨x, b, s, b', y, e1, rfl, _⟩
    · exact .refl _
    · rw [e1]
      exact (List.Sublist.refl x).append (.cons_cons _ (.cons _ (.cons _ (.refl _))))
  exact (h1.trans h2).trans (by unfold Region.lines; exact List.sublist_append_right _ _)

/-- C41: the bodies one after the other are a subsequence of the lines of the acts section, in order. -/
theorem C41_subsequence (pages : List Page) (acts : List ActRawText)
    (h : parseMkPagesIntoActs pages = some acts) :
    (acts.flatMap (·.body)).Sublist (actsLines [] pages) := by
  obtain ⟨date, regions, rest, _, e, hr⟩ := C41_regions pages acts h
  rw [e]
  refine .trans ?_ (List.sublist_append_left _ _)
  clear e h
  induction hr with
  | nil => exact .slnil
  | cons h1 _ ih =>
    obtain ⟨body, e, h2⟩ := h1
    simp only [List.flatMap_cons]
    refine .append ?_ ih
    rw [e]
    exact (removeDouble_sublist body).trans (region_body_sublist h2)

theorem actsLines_sublist (before : List Line) (ps : List Page) :
    (actsLines before ps).Sublist (ps.flatMap fun p => p ++ [Line.emptyLine]) := by
  induction ps generalizing before with
  | nil => exact .slnil
  | cons p ps ih =>
    simp only [actsLines, List.flatMap_cons]
    refine .append (.append (actsLinesOfPage_sublist _ _) ?_) (ih _)
    split
    · exact .refl _
    · exact List.nil_sublist _

/-- C41: all lines in the bodies are lines of the gazette in order, apart from the empty lines added at the
end of pages. -/
theorem C41_gazette_lines (pages : List Page) (acts : List ActRawText)
    (h : parseMkPagesIntoActs pages = some acts) :
    (acts.flatMap (·.body)).Sublist (pages.flatMap fun p => p ++ [Line.emptyLine]) :=
  (C41_subsequence pages acts h).trans (actsLines_sublist [] pages)

/-- C41: a gazette is rejected exactly if it has less than two pages or no readable date on its cover. -/
theorem C41_rejected_iff (pages : List Page) :
    parseMkPagesIntoActs pages = none ↔
      pages.length < 2 ∨ ∃ cover, pages.head? = some cover ∧ parseMkCoverPage cover = none := by
  unfold parseMkPagesIntoActs
  match pages with
  | [] => simp
  | [p] => simp
  | cover :: p1 :: ps =>
    simp only [List.length_cons, List.head?_cons, Option.some.injEq, exists_eq_left']
    cases hc : parseMkCoverPage cover with
    | none => simp
    | some d => simp

/-! ### C61 -/

theorem blank_no_title {l : Line} (h : l.content = []) (id : ActId) : ¬ TitleOf l id := by
  rintro ⟨a, b, c, d, x, n, y, after, e, _⟩
  rw [h] at e
  simp at e

theorem headerId_none {l : Line} (h : ∀ id, ¬ TitleOf l id) : Extractor.headerId l = none := by
  cases h1 : Extractor.headerId l with
  | none => rfl
  | some id => exact absurd ((headerId_iff l id).1 h1) (h id)

/-- The extractor between two acts. -/
def idle (date : Date) (res : List ActRawText) (st : ExtractState) : Extractor :=
  ⟨date, Extractor.defaultId, [], [], res, st⟩

theorem skip_any (date : Date) (res : List ActRawText) (s : List Line) (h : ∀ l ∈ s, ∀ id, ¬ TitleOf l id) :
    ∃ st, (st = .waitingForHeaderNewline ∨ st = .waitingForHeader) ∧
      s.foldl Extractor.feedLine (idle date res .waitingForHeaderNewline) = idle date res st := by
  induction s using List.reverseRecOn with
  | nil => exact ⟨_, .inl rfl, rfl⟩
  | append_singleton s l ih =>
    obtain ⟨st, h1, h2⟩ := ih fun x hx => h x (by simp [hx])
    rw [List.foldl_append, h2]
    rcases h1 with rfl | rfl
    · simp only [List.foldl_cons, List.foldl_nil]
      by_cases hl : l.isEmpty = true
      · exact ⟨_, .inr rfl, by simp [Extractor.feedLine, idle, Extractor.waitForHeaderNewline, hl]⟩
      · exact ⟨_, .inl rfl, by simp [Extractor.feedLine, idle, Extractor.waitForHeaderNewline, hl]⟩
    · refine ⟨_, .inl rfl, ?_⟩
      simp [Extractor.feedLine, idle, Extractor.waitForHeader, headerId_none (h l (by simp))]

theorem skip_text (date : Date) (res : List ActRawText) (s : List Line) (h : ∀ l ∈ s, ∀ id, ¬ TitleOf l id)
    (hl : ∀ l, s.getLast? = some l → l.isEmpty = false) :
    s.foldl Extractor.feedLine (idle date res .waitingForHeaderNewline) =
      idle date res .waitingForHeaderNewline := by
  rcases List.eq_nil_or_concat s with rfl | ⟨s, l, rfl⟩
  · rfl
  · simp only [List.concat_eq_append] at h hl ⊢
    obtain ⟨st, h1, h2⟩ := skip_any date res s fun x hx => h x (by simp [hx])
    rw [List.foldl_append, h2]
    have hl2 := hl l (by simp)
    rcases h1 with rfl | rfl
    · simp [Extractor.feedLine, idle, Extractor.waitForHeaderNewline, hl2]
    · simp [Extractor.feedLine, idle, Extractor.waitForHeader, headerId_none (h l (by simp))]

theorem skip_blanks (date : Date) (res : List ActRawText) :
    ∀ (n : Nat) (s : List Line), s.length = 2 * n → (∀ l ∈ s, ∀ id, ¬ TitleOf l id) →
      (∀ l ∈ s, l.isEmpty = true) →
      s.foldl Extractor.feedLine (idle date res .waitingForHeaderNewline) =
        idle date res .waitingForHeaderNewline
  | 0, s, hn, _, _ => by
    obtain rfl := List.length_eq_zero_iff.1 (by omega : s.length = 0)
    rfl
  | n + 1, [], hn, _, _ => by simp at hn
  | n + 1, [_], hn, _, _ => by simp at hn; omega
  | n + 1, a :: b :: s, hn, h1, h2 => by
    have : (a :: b :: s).foldl Extractor.feedLine (idle date res .waitingForHeaderNewline) =
        s.foldl Extractor.feedLine (idle date res .waitingForHeaderNewline) := by
      simp [Extractor.feedLine, idle, Extractor.waitForHeaderNewline, Extractor.waitForHeader,
        h2 a (by simp), headerId_none (h1 b (by simp))]
    rw [this]
    exact skip_blanks date res n s (by simp at hn; omega) (fun l hl => h1 l (by simp [hl]))
      (fun l hl => h2 l (by simp [hl]))

theorem read_subject (date : Date) (res : List ActRawText) (id : ActId) (su : List Line)
    (h : ∀ p, p <+: su → (Line.join p).getLast? ≠ some '*') :
    su.foldl Extractor.feedLine ⟨date, id, [], [], res, .parsingActSubject⟩ =
      ⟨date, id, Line.join su, [], res, .parsingActSubject⟩ := by
  induction su using List.reverseRecOn with
  | nil => rfl
  | append_singleton s l ih =>
    have h1 := h (s ++ [l]) (List.prefix_refl _)
    rw [List.foldl_append, ih fun p hp => h p (hp.trans (List.prefix_append _ _)), join_snoc]
    rw [join_snoc] at h1
    simp [Extractor.feedLine, Extractor.parseActSubject, h1]

theorem not_signature {l : Line} (h : ¬ IsSignature l) : Extractor.signatures.contains l.content = false := by
  rw [Bool.eq_false_iff]
  intro hc
  exact h (by simpa [Extractor.signatures, IsSignature] using hc)

theorem is_signature {l : Line} (h : IsSignature l) : Extractor.signatures.contains l.content = true := by
  simpa [Extractor.signatures, IsSignature] using h

theorem after_plain (e : Extractor) {l : Line} (h : ¬ IsSignature l) :
    e.parseBodyAfterFooter l = { e with body := e.body ++ [l], state := .bodyAfterAsteriskFooter } := by
  unfold Extractor.parseBodyAfterFooter
  simp only [not_signature h, Bool.and_false, Bool.false_eq_true, if_false]

theorem read_before (date : Date) (res : List ActRawText) (id : ActId) (su : Str) (q : List Line)
    (h1 : ∀ l ∈ q, ¬ IsSignature l) (h2 : ∀ l ∈ q.dropLast, l.content.head? ≠ some '*') :
    q.foldl Extractor.feedLine ⟨date, id, su, [], res, .bodyBeforeAsteriskFooter⟩ =
      ⟨date, id, su, q, res, .bodyBeforeAsteriskFooter⟩ := by
  induction q using List.reverseRecOn with
  | nil => rfl
  | append_singleton q l ih =>
    simp only [List.dropLast_concat] at h2
    rw [List.foldl_append, ih (fun x hx => h1 x (by simp [hx])) fun x hx => h2 x (List.mem_of_mem_dropLast hx)]
    simp only [List.foldl_cons, List.foldl_nil, Extractor.feedLine, Extractor.parseBodyBeforeFooter]
    rw [if_neg]
    · rw [after_plain _ (h1 l (by simp))]
    · intro hc
      simp only [Bool.and_eq_true, decide_eq_true_eq] at hc
      obtain ⟨x, b1, s1, e1, _, _, e4⟩ := last2 (d := l) q (by omega)
      rw [e4] at hc
      obtain ⟨r, hr⟩ := startsWith_iff.1 hc.2
      exact h2 s1 (by rw [e1]; simp) (by rw [hr]; rfl)

theorem read_after (date : Date) (res : List ActRawText) (id : ActId) (su : Str) (b0 q : List Line)
    (h1 : ∀ l ∈ q, ¬ IsSignature l) :
    q.foldl Extractor.feedLine ⟨date, id, su, b0, res, .bodyAfterAsteriskFooter⟩ =
      ⟨date, id, su, b0 ++ q, res, .bodyAfterAsteriskFooter⟩ := by
  induction q using List.reverseRecOn with
  | nil => simp
  | append_singleton q l ih =>
    rw [List.foldl_append, ih (fun x hx => h1 x (by simp [hx]))]
    simp only [List.foldl_cons, List.foldl_nil, Extractor.feedLine]
    rw [after_plain _ (h1 l (by simp))]
    simp

theorem end_act (date : Date) (res : List ActRawText) (id : ActId) (su : Str) (body : List Line)
    (b n s : Line) (st : ExtractState) (h2 : 2 ≤ body.length) (hb : b.isEmpty = true) (hs : IsSignature s) :
    Extractor.parseBodyAfterFooter ⟨date, id, su, body ++ [b, n], res, st⟩ s =
      idle date (res ++ [⟨id, su, date, body⟩]) .waitingForHeaderNewline := by
  unfold Extractor.parseBodyAfterFooter
  have e : body ++ [b, n] ++ [s] = body ++ [b, n, s] := by simp
  have hl : (body ++ [b, n, s]).length = body.length + 3 := by simp
  simp only
  rw [e, hl, if_pos]
  · simp [idle]
  · rw [is_signature hs]
    simp [List.getD_eq_getElem?_getD, hb]
    omega

theorem empty_content {l : Line} (h : l.isEmpty = true) : l.content = [] := by
  unfold Line.isEmpty at h
  unfold Line.content
  rw [List.isEmpty_iff.1 h]
  rfl

theorem clean_region (date : Date) (res : List ActRawText) (r : Region) (a : ActRawText)
    (h : IsCleanAct date r a) (ho : OddBlank r) :
    r.lines.foldl Extractor.feedLine (idle date res .waitingForHeaderNewline) =
      idle date (res ++ [a]) .waitingForHeaderNewline := by
  obtain ⟨hb, ht, hj, hp, hd, hsk, hsig, b, n, s, h2, hbe, hs, hbody⟩ := h
  obtain ⟨s0, bl, e0, hs0, hbl, hev⟩ := ho
  unfold Region.lines
  simp only [List.foldl_append]
  have hskip : r.skipped.foldl Extractor.feedLine (idle date res .waitingForHeaderNewline) =
      idle date res .waitingForHeaderNewline := by
    rw [e0, List.foldl_append, skip_text date res s0 (fun l hl => hsk l (by rw [e0]; simp [hl])) hs0]
    exact skip_blanks date res (bl.length / 2) bl (by omega) (fun l hl => hsk l (by rw [e0]; simp [hl])) hbl
  have htitle : [r.blank, r.title].foldl Extractor.feedLine (idle date res .waitingForHeaderNewline) =
      ⟨date, a.identifier, [], [], res, .parsingActSubject⟩ := by
    simp [Extractor.feedLine, idle, Extractor.waitForHeaderNewline, Extractor.waitForHeader, hb,
      (headerId_iff r.title a.identifier).2 ht]
  have hsubj : r.subject.foldl Extractor.feedLine ⟨date, a.identifier, [], [], res, .parsingActSubject⟩ =
      ⟨date, a.identifier, a.subject, [], res, .bodyBeforeAsteriskFooter⟩ := by
    rcases List.eq_nil_or_concat r.subject with e | ⟨q, l, e⟩
    · rw [e] at hj; simp [Line.join] at hj
    · simp only [List.concat_eq_append] at e
      rw [e] at hj hp ⊢
      rw [List.foldl_append, read_subject]
      · rw [join_snoc] at hj
        simp [Extractor.feedLine, Extractor.parseActSubject, hj]
      · intro p hpq
        refine hp p (hpq.trans (List.prefix_append _ _)) ?_
        intro hc
        rw [hc] at hpq
        have := hpq.length_le
        simp at this
  have ha : (⟨a.identifier, a.subject, date, a.body⟩ : ActRawText) = a := by
    obtain ⟨_, _, _, _⟩ := a
    simp only at hd
    rw [hd]
  rw [hskip, htitle, hsubj]
  rcases hbody with ⟨hst, e⟩ | ⟨x, em, st, em', y, e1, e2, hx, hy, hem, hst, hem', hxs⟩
  · have e' : r.body = (a.body ++ [b, n]) ++ [s] := by rw [e]; simp
    rw [e', List.dropLast_concat] at hsig
    rw [e', List.foldl_append, read_before _ _ _ _ _ hsig
      fun l hl => hst l (by rw [e']; have := List.mem_of_mem_dropLast hl; simp at this ⊢; tauto)]
    simp only [List.foldl_cons, List.foldl_nil, Extractor.feedLine, Extractor.parseBodyBeforeFooter]
    rw [if_neg, end_act _ _ _ _ _ _ _ _ _ h2 hbe hs, ha]
    · rfl
    · intro hc
      simp only [Bool.and_eq_true, decide_eq_true_eq] at hc
      have h5 := empty_content hc.1.1.1
      rcases hs with hs | hs | hs <;> · rw [h5] at hs; simp at hs
  · rcases List.eq_nil_or_concat y with rfl | ⟨y, z, rfl⟩
    · exact absurd rfl hy
    simp only [List.concat_eq_append] at e1 e2
    have ez : a.body ++ [b, n] ++ [s] = (x ++ em :: y) ++ [z] := by simpa using e2
    have hz := List.append_inj' ez rfl
    simp only [List.cons.injEq, and_true] at hz
    obtain ⟨hz1, rfl⟩ := hz
    have e1' : r.body = (x ++ [em, st]) ++ [em'] ++ y ++ [s] := by rw [e1]; simp
    have hemc := empty_content hem
    rw [e1', List.dropLast_concat] at hsig
    rw [e1']
    simp only [List.foldl_append]
    rw [← List.foldl_append (l := x), read_before]
    · have hfoot : [em'].foldl Extractor.feedLine
          ⟨date, a.identifier, a.subject, x ++ [em, st], res, .bodyBeforeAsteriskFooter⟩ =
          ⟨date, a.identifier, a.subject, x ++ [em], res, .bodyAfterAsteriskFooter⟩ := by
        simp only [List.foldl_cons, List.foldl_nil, Extractor.feedLine, Extractor.parseBodyBeforeFooter]
        rw [if_pos]
        · simp
        · have hx1 : 0 < x.length := List.length_pos_iff.2 hx
          have : startsWith st.content ['*'] = true := by
            rw [startsWith_iff]
            cases hsc : st.content with
            | nil => rw [hsc] at hst; simp at hst
            | cons c cs => rw [hsc] at hst; simp at hst; exact ⟨cs, by rw [hst]; rfl⟩
          simp [List.getD_eq_getElem?_getD, hem', hem, this]
          omega
      rw [hfoot, read_after _ _ _ _ _ _ fun l hl => hsig l (by simp [hl])]
      have : x ++ [em] ++ y = a.body ++ [b, n] := by rw [hz1]; simp
      rw [this]
      simp only [List.foldl_cons, List.foldl_nil, Extractor.feedLine]
      rw [end_act _ _ _ _ _ _ _ _ _ h2 hbe hs, ha]
    · intro l hl
      exact hsig l (by simp at hl ⊢; tauto)
    · intro l hl
      have : (x ++ [em, st]).dropLast = x ++ [em] := by simp
      rw [this] at hl
      simp only [List.mem_append, List.mem_singleton] at hl
      rcases hl with hl | rfl
      · exact hxs l hl
      · rw [hemc]; simp

theorem clean_regions (date : Date) (regions : List Region) (acts res : List ActRawText)
    (h : List.Forall₂ (fun r a => IsCleanAct date r a) regions acts) (ho : ∀ r ∈ regions, OddBlank r) :
    (regions.flatMap Region.lines).foldl Extractor.feedLine (idle date res .waitingForHeaderNewline) =
      idle date (res ++ acts) .waitingForHeaderNewline := by
  induction h generalizing res with
  | nil => simp
  | @cons r a rs as h1 _ ih =>
    simp only [List.flatMap_cons, List.foldl_append]
    rw [clean_region date res r a h1 (ho r (by simp)),
      ih _ (fun r hr => ho r (by simp [hr]))]
    simp

/-- The lines of the acts section are the lines of these acts, and some rest without titles. -/
def ConsistsOf (pages : List Page) (date : Date) (regions : List Region) (acts : List ActRawText) : Prop :=
  2 ≤ pages.length ∧ (∃ cover, pages.head? = some cover ∧ parseMkCoverPage cover = some date) ∧
  ∃ rest, actsLines [] pages = regions.flatMap Region.lines ++ rest ∧ (∀ l ∈ rest, ∀ id, ¬ TitleOf l id) ∧
    List.Forall₂ (fun r a => IsCleanAct date r a) regions acts

/-- C61: all acts are found whose title comes after an empty line. -/
def C61_statement : Prop :=
  ∀ pages date regions acts, ConsistsOf pages date regions acts →
    parseMkPagesIntoActs pages = some (acts.map fun a => { a with body := removeDoubleEmptyLines a.body })

/-- C61 if the number of empty lines right before each title is odd. Missing: an even number of empty lines
before a title. In that case the act is not found (`C61_violated`). -/
theorem C61_complete_partial (pages : List Page) (date : Date) (regions : List Region) (acts : List ActRawText)
    (h : ConsistsOf pages date regions acts) (ho : ∀ r ∈ regions, OddBlank r) :
    parseMkPagesIntoActs pages = some (acts.map fun a => { a with body := removeDoubleEmptyLines a.body }) := by
  obtain ⟨h2, ⟨cover, hc1, hc2⟩, rest, e, hrest, hf⟩ := h
  unfold parseMkPagesIntoActs
  match pages, h2, hc1, e with
  | c :: p1 :: ps, _, hc1, e =>
    simp only [List.head?_cons, Option.some.injEq] at hc1
    subst hc1
    simp only [hc2, Option.some.injEq]
    have ht : Tracks ⟨Extractor.new date, false, false⟩ [] := ⟨by simp [inActs_nil], by simp⟩
    rw [tracks_pages (c :: p1 :: ps) ht, e, List.foldl_append]
    have hnew : Extractor.new date = idle date [] .waitingForHeaderNewline := rfl
    simp only
    rw [hnew, clean_regions date regions acts [] hf ho]
    obtain ⟨st, _, h4⟩ := skip_any date ([] ++ acts) rest hrest
    rw [h4]
    simp [idle]

/-- `actsLinesOfPage`, computed. -/
def computedOfPage (s : SectionState) : Page → List Line
  | [] => []
  | l :: ls =>
    (if !lineIsActSectionStart l && !lineIsActSectionEnd l && (s.feed l).extracting then [l] else []) ++
      computedOfPage (s.feed l) ls

/-- `actsLines`, computed. -/
def computed (s : SectionState) : List Page → List Line
  | [] => []
  | p :: ps =>
    computedOfPage s p ++ (if (p.foldl SectionState.feed s).extracting then [Line.emptyLine] else []) ++
      computed (p.foldl SectionState.feed s) ps

theorem computedOfPage_eq (p : Page) {s : SectionState} {before : List Line} (h : Tracks s before) :
    actsLinesOfPage before p = computedOfPage s p := by
  induction p generalizing s before with
  | nil => rfl
  | cons l ls ih =>
    obtain ⟨h1, _⟩ := tracks_feed h l
    simp only [actsLinesOfPage, computedOfPage]
    rw [ih h1]
    congr 1
    by_cases h2 : ¬ IsStart l ∧ ¬ IsStop l ∧ InActs (before ++ [l])
    · rw [if_pos h2, if_pos]
      simp only [Bool.and_eq_true, Bool.not_eq_true']
      refine ⟨⟨?_, ?_⟩, h1.extracting.2 h2.2.2⟩
      · rw [Bool.eq_false_iff]; exact fun hc => h2.1 (isStart_iff.1 hc)
      · rw [Bool.eq_false_iff]; exact fun hc => h2.2.1 (isStop_iff.1 hc)
    · rw [if_neg h2, if_neg]
      intro hc
      simp only [Bool.and_eq_true, Bool.not_eq_true'] at hc
      refine h2 ⟨?_, ?_, h1.extracting.1 hc.2⟩
      · intro hs; rw [isStart_iff.2 hs] at hc; simp at hc
      · intro hs; rw [isStop_iff.2 hs] at hc; simp at hc

open Classical in
theorem computed_eq (ps : List Page) {s : SectionState} {before : List Line} (h : Tracks s before) :
    actsLines before ps = computed s ps := by
  induction ps generalizing s before with
  | nil => rfl
  | cons p ps ih =>
    obtain ⟨h1, _⟩ := tracks_feed_all p h
    simp only [actsLines, computed]
    rw [ih h1, computedOfPage_eq p h]
    congr 2
    by_cases h2 : InActs (before ++ p)
    · rw [if_pos h2, if_pos (h1.extracting.2 h2)]
    · rw [if_neg h2, if_neg (fun hc => h2 (h1.extracting.1 hc))]

/-- A bold line, for examples. -/
def boldLine (s : Str) : Line := .fromParts (s.map fun c => ⟨1, c, true⟩) true

def sampleCover : Page :=
  [sampleLine str!"MAGYAR KÖZLÖNY" 0, sampleLine str!"81. szám" 0, sampleLine str!"A HIVATALOS LAPJA" 0,
   sampleLine str!"2021. május 7., péntek" 0]

def sampleBody : List Line :=
  [sampleLine str!"1. § Elso." 0, sampleLine str!"2. § Masodik." 0]

def sampleEnd : List Line :=
  [.emptyLine, sampleLine str!"Áder János Kövér László" 0,
   sampleLine str!"köztársasági elnök az Országgyűlés elnöke" 0]

def sampleFooter : List Line :=
  [.emptyLine, sampleLine str!"* A törvényt az Országgyűlés fogadta el." 0, .emptyLine]

def sampleDate : Date := ⟨2021, 5, 7⟩

def sampleAct : ActRawText :=
  ⟨⟨⟨2021, by decide⟩, ⟨20, by decide⟩⟩, str!"a teszt", sampleDate,
   sampleBody ++ [.emptyLine, sampleLine str!"3. § Harmadik." 0]⟩

def sampleRegion (blanks : List Line) : Region :=
  ⟨blanks, .emptyLine, boldLine str!"2021. évi XX. törvény", [boldLine str!"a", boldLine str!"teszt*"],
   sampleBody ++ sampleFooter ++ [sampleLine str!"3. § Harmadik." 0] ++ sampleEnd⟩

def samplePages (blanks : List Line) : List Page :=
  [sampleCover,
   [boldLine str!"I. Utasítások", sampleLine str!"x" 0, boldLine str!"II. Törvények"] ++ (sampleRegion blanks).lines,
   [boldLine str!"III. Kormányrendeletek", .emptyLine, boldLine str!"2021. évi XXI. törvény"]]

theorem sample_consists (blanks : List Line) (hb : blanks = [] ∨ blanks = [.emptyLine]) :
    ConsistsOf (samplePages blanks) sampleDate [sampleRegion blanks] [sampleAct] := by
  have ht : Tracks ⟨Extractor.new sampleDate, false, false⟩ [] := ⟨by simp [inActs_nil], by simp⟩
  refine ⟨by simp [samplePages], ⟨sampleCover, rfl, by decide +kernel⟩, [.emptyLine], ?_, ?_, .cons ?_ .nil⟩
  · rw [computed_eq _ ht]
    rcases hb with rfl | rfl <;> decide +kernel
  · intro l hl id
    rw [List.mem_singleton.1 hl]
    exact blank_no_title rfl id
  · refine ⟨rfl, (headerId_iff _ _).1 (show Extractor.headerId (sampleRegion []).title = _ by decide +kernel),
      (show Line.join (sampleRegion []).subject = _ by decide +kernel), ?_, rfl, ?_, ?_,
      .emptyLine, sampleLine str!"Áder János Kövér László" 0,
      sampleLine str!"köztársasági elnök az Országgyűlés elnöke" 0, by decide, rfl, .inl (by decide +kernel),
      .inr ⟨sampleBody, .emptyLine, sampleLine str!"* A törvényt az Országgyűlés fogadta el." 0, .emptyLine,
        [sampleLine str!"3. § Harmadik." 0] ++ sampleEnd, rfl, rfl, by decide, by decide, rfl, by decide +kernel, rfl,
        by decide +kernel⟩⟩
    · intro p hp hne
      have hp2 : p <+: [boldLine str!"a", boldLine str!"teszt*"] := hp
      rw [List.prefix_cons_iff] at hp2
      rcases hp2 with rfl | ⟨t, rfl, ht⟩
      · decide
      · rw [List.prefix_cons_iff] at ht
        rcases ht with rfl | ⟨t, rfl, ht⟩
        · decide +kernel
        · rw [List.prefix_nil] at ht
          subst ht
          exact absurd rfl hne
    · rcases hb with rfl | rfl
      · intro l hl; exact absurd hl List.not_mem_nil
      · intro l hl id
        rw [List.mem_singleton.1 hl]
        exact blank_no_title rfl id
    · unfold IsSignature
      rcases hb with rfl | rfl <;> decide +kernel

example : ConsistsOf (samplePages []) sampleDate [sampleRegion []] [sampleAct] ∧ OddBlank (sampleRegion []) :=
  ⟨sample_consists [] (.inl rfl), [], [], rfl, by simp, by simp, rfl⟩

example : parseMkPagesIntoActs (samplePages []) = some [sampleAct] := by decide +kernel

/-- C61 does not hold: with two empty lines before the title the act is lost. -/
theorem C61_violated : ¬ C61_statement := by
  intro h
  have h1 := h _ _ _ _ (sample_consists [.emptyLine] (.inr rfl))
  revert h1
  decide +kernel

/-! ### C62 -/

theorem isLeap_iff (y : Int) : Date.isLeap y = true ↔ 4 ∣ y ∧ (100 ∣ y → 400 ∣ y) := by
  unfold Date.isLeap
  simp only [Bool.or_eq_true, Bool.and_eq_true, beq_iff_eq, bne_iff_ne]
  omega

theorem ofYmd_iff (y : Int) (m d : Nat) (x : Date) :
    Date.ofYmd y m d = some x ↔ x = ⟨y, m, d⟩ ∧ RealDate ⟨y, m, d⟩ := by
  have key : (1 ≤ d ∧ d ≤ Date.daysIn y m) ↔ RealDate ⟨y, m, d⟩ := by
    unfold RealDate Date.daysIn
    simp only
    rw [← isLeap_iff]
    by_cases hm : 1 ≤ m ∧ m ≤ 12
    · have : m = 1 ∨ m = 2 ∨ m = 3 ∨ m = 4 ∨ m = 5 ∨ m = 6 ∨ m = 7 ∨ m = 8 ∨ m = 9 ∨ m = 10 ∨ m = 11 ∨ m = 12 := by
        omega
      rcases this with rfl | rfl | rfl | rfl | rfl | rfl | rfl | rfl | rfl | rfl | rfl | rfl <;>
        simp [monthDays]
      cases Date.isLeap y
      · simp
      · simp; omega
    · have h1 : m ≠ 2 ∧ ¬ (m = 4 ∨ m = 6 ∨ m = 9 ∨ m = 11) := by omega
      rw [if_neg h1.1, if_neg h1.2, if_neg hm]
      omega
  unfold Date.ofYmd
  split
  · rename_i h
    simp only [Option.some.injEq]
    exact ⟨fun e => ⟨e.symm, key.1 h⟩, fun e => e.1.symm⟩
  · rename_i h
    simp only [reduceCtorEq, false_iff]
    exact fun e => h (key.2 e.2)

theorem month_iff (s : Str) (m : Nat) :
    monthFromHungarian s = some m ↔ 1 ≤ m ∧ monthNames[m - 1]? = some s := by
  constructor
  · intro h
    unfold monthFromHungarian at h
    simp only [List.lookup_cons] at h
    repeat' split at h
    all_goals first
      | (simp only [beq_iff_eq] at *; simp only [Option.some.injEq] at h; subst h; simp_all [monthNames])
      | (simp at h)
  · rintro ⟨h1, h2⟩
    have hm : m ≤ 12 := by
      by_contra hc
      rw [List.getElem?_eq_none (by simp [monthNames]; omega)] at h2
      simp at h2
    have : m = 1 ∨ m = 2 ∨ m = 3 ∨ m = 4 ∨ m = 5 ∨ m = 6 ∨ m = 7 ∨ m = 8 ∨ m = 9 ∨ m = 10 ∨ m = 11 ∨ m = 12 := by
      omega
    rcases this with rfl | rfl | rfl | rfl | rfl | rfl | rfl | rfl | rfl | rfl | rfl | rfl <;>
      · simp [monthNames] at h2
        subst h2
        decide

theorem digit_of_isDigit {c : Char} (h : isDigit c = true) : digit c = true := by
  simp only [isDigit, Bool.and_eq_true, decide_eq_true_eq] at h
  simp only [digit, List.any_eq_true]
  exact ⟨0x30, by simp [digitZeros], by simp; omega⟩

theorem hungarian_match {s : Str} {m : MState} (h : matchAt Date.hungarianRe s = some m) :
    ∃ year x month day y rest, s = year ++ [x] ++ str!" " ++ month ++ str!" " ++ day ++ [y] ++ rest ∧
      year.length = 4 ∧ (∀ c ∈ year, digit c = true) ∧ (day.length = 1 ∨ day.length = 2) ∧
      (∀ c ∈ day, digit c = true) ∧ ' ' ∉ month ∧ (m.group 1).map Prod.snd = some year ∧
      (m.group 2).map Prod.snd = some month ∧ (m.group 3).map Prod.snd = some day ∧ x ≠ '\n' ∧ y ≠ '\n' := by
  unfold matchAt Date.hungarianRe at h
  simp only [seqs] at h
  obtain ⟨t1, s1, l1, rfl, h1⟩ := peel_cap (by decide) h
  obtain ⟨t2, s2, l2, rfl, h2⟩ := peel (by decide) h1
  obtain ⟨t3, s3, l3, rfl, h3⟩ := peel (by decide) h2
  obtain ⟨t4, s4, l4, rfl, h4⟩ := peel_cap (by decide) h3
  obtain ⟨t5, s5, l5, rfl, h5⟩ := peel (by decide) h4
  obtain ⟨t6, s6, l6, rfl, h6⟩ := peel_cap (by decide) h5
  obtain ⟨t7, l7, rfl, hc⟩ := peel_end (by decide) h6
  rw [lang_lit] at l3 l5
  subst l3 l5
  rw [lang_many1] at l4
  obtain ⟨_, _, rfl, ⟨a, ha, rfl⟩, _, _, rfl, ⟨b, hb, rfl⟩, _, _, rfl, ⟨c, hcc, rfl⟩, d, hd, rfl⟩ := l1
  obtain ⟨x, hx, rfl⟩ := l2
  obtain ⟨y, hy, rfl⟩ := l7
  obtain ⟨_, t8, rfl, ⟨e, he, rfl⟩, l6⟩ := l6
  rw [lang_opt] at l6
  refine ⟨[a, b, c, d], x, t4, e :: t8, y, m.rest, by simp, rfl, ?_, ?_, ?_, ?_, ?_, ?_, ?_, by simpa [anyChar] using hx,
    by simpa [anyChar] using hy⟩
  · simp [ha, hb, hcc, hd]
  · rcases l6 with ⟨f, hf, rfl⟩ | rfl <;> simp
  · rcases l6 with ⟨f, hf, rfl⟩ | rfl
    · simp [he, hf]
    · simp [he]
  · intro hs
    have := l4.2 _ hs
    simp at this
  all_goals
    unfold MState.group
    rw [hc]
    simp

/-- C62: a date that is read is a real one, and the text has its year, the name of its month and its day. -/
theorem C62_sound (s : Str) (d : Date) (h : Date.fromHungarian s = some d) :
    RealDate d ∧ ∃ year x month day y rest, s = year ++ [x] ++ str!" " ++ month ++ str!" " ++ day ++ [y] ++ rest ∧
      year.length = 4 ∧ (parseDigits year).map Int.ofNat = some d.year ∧ monthNames[d.month - 1]? = some month ∧
      day.length ≤ 2 ∧ parseDigits day = some d.day := by
  unfold Date.fromHungarian at h
  cases hm : matchAt Date.hungarianRe s with
  | none => rw [hm] at h; simp at h
  | some m =>
    obtain ⟨year, x, month, day, y, rest, e, h1, h2, h3, h4, h5, g1, g2, g3, -⟩ := hungarian_match hm
    cases hg1 : m.group 1 with
    | none => rw [hg1] at g1; simp at g1
    | some p1 =>
    cases hg2 : m.group 2 with
    | none => rw [hg2] at g2; simp at g2
    | some p2 =>
    cases hg3 : m.group 3 with
    | none => rw [hg3] at g3; simp at g3
    | some p3 =>
    rw [hg1] at g1
    rw [hg2] at g2
    rw [hg3] at g3
    simp only [Option.map_some, Option.some.injEq] at g1 g2 g3
    rw [hm] at h
    simp only [Option.bind_eq_bind, Option.bind_some, hg1, hg2, hg3, g1, g2, g3, Option.bind_eq_some_iff] at h
    obtain ⟨yv, hy, mv, hmv, dv, hdv, h⟩ := h
    rw [ofYmd_iff] at h
    obtain ⟨rfl, hreal⟩ := h
    refine ⟨hreal, year, x, month, day, y, rest, e, h1, ?_, ((month_iff _ _).1 hmv).2, by omega, ?_⟩
    · have h6 : parseSigned (-2147483648) 2147483647 year = some yv.val := by
        unfold parseI32 at hy
        split at hy
        · rename_i v hv
          split at hy
          · simp only [Option.some.injEq] at hy
            rw [hv, ← hy]
          · simp at hy
        · simp at hy
      unfold parseSigned at h6
      simp only at h6
      split at h6
      · exact absurd (h2 '-' (by simp)) (by decide)
      · exact absurd (h2 '+' (by simp)) (by decide)
      · simp only [Option.bind_eq_some_iff] at h6
        obtain ⟨n, hn, h6⟩ := h6
        rw [hn]
        split at h6
        · simpa using h6
        · simp at h6
    · unfold parseUnsigned at hdv
      have hplus : dropPlus day = day := by
        cases day with
        | nil => rfl
        | cons c cs =>
          unfold dropPlus
          split
          · exact absurd (h4 '+' (by simp_all)) (by decide)
          · rfl
      rw [hplus] at hdv
      split at hdv
      · rename_i n hn
        rw [hn]
        split at hdv
        · exact hdv
        · simp at hdv
      · simp at hdv

theorem run_cap_text {n : Nat} {r : Re} {pre t s : Str} {caps : List (Nat × Str × Str)}
    (h : (run r ⟨pre, t ++ s, caps⟩).head? = some ⟨pre ++ t, s, caps⟩) :
    (run (.cap n r) ⟨pre, t ++ s, caps⟩).head? = some ⟨pre ++ t, s, (n, pre, t) :: caps⟩ := by
  rw [run_cap_head h]
  simp

theorem dec_four {y : Nat} (h : 1000 ≤ y ∧ y ≤ 9999) :
    ∃ a b c d, dec y = [a, b, c, d] ∧ isDigit a = true ∧ isDigit b = true ∧ isDigit c = true ∧ isDigit d = true := by
  obtain ⟨k, rfl⟩ : ∃ k, y = k + 4 := ⟨y - 4, by omega⟩
  refine ⟨digitChar ((k + 4) / 10 / 10 / 10), digitChar ((k + 4) / 10 / 10 % 10), digitChar ((k + 4) / 10 % 10),
    digitChar ((k + 4) % 10), ?_, isDigit_digitChar (by omega), isDigit_digitChar (by omega),
    isDigit_digitChar (by omega), isDigit_digitChar (by omega)⟩
  unfold dec
  rw [show k + 4 + 1 = (k + 1) + 1 + 1 + 1 + 1 by omega]
  simp only [decAux]
  rw [if_neg (by omega), if_neg (by omega), if_neg (by omega), if_pos (by omega)]
  simp

theorem dec_day {d : Nat} (h : d ≤ 31) :
    (∃ p, dec d = [p] ∧ isDigit p = true) ∨ ∃ p q, dec d = [p, q] ∧ isDigit p = true ∧ isDigit q = true := by
  by_cases h1 : d < 10
  · refine .inl ⟨digitChar d, ?_, isDigit_digitChar h1⟩
    simp [dec, decAux, h1]
  · obtain ⟨k, rfl⟩ : ∃ k, d = k + 2 := ⟨d - 2, by omega⟩
    refine .inr ⟨digitChar ((k + 2) / 10), digitChar ((k + 2) % 10), ?_, isDigit_digitChar (by omega),
      isDigit_digitChar (by omega)⟩
    unfold dec
    rw [show k + 2 + 1 = (k + 1) + 1 + 1 by omega]
    simp only [decAux]
    rw [if_neg (by omega), if_pos (by omega)]
    simp

theorem month_shape : ∀ n ∈ monthNames, n ≠ [] ∧ ∀ c ∈ n, (c != ' ') = true := by decide

/-- C62: every date is read, whatever comes after it. -/
theorem C62_reads (y m d : Nat) (name rest : Str) (hy : 1000 ≤ y ∧ y ≤ 9999) (hd : RealDate ⟨y, m, d⟩)
    (hn : monthNames[m - 1]? = some name) :
    Date.fromHungarian (dec y ++ str!". " ++ name ++ str!" " ++ dec d ++ str!"." ++ rest) = some ⟨y, m, d⟩ := by
  obtain ⟨a, b, c, e, ey, ha, hb, hc, he⟩ := dec_four hy
  have hd31 : d ≤ 31 := by
    obtain ⟨h1, h2, _, h3⟩ := hd
    simp only at h1 h2 h3
    rcases h3 with h3 | h3
    · have : m = 1 ∨ m = 2 ∨ m = 3 ∨ m = 4 ∨ m = 5 ∨ m = 6 ∨ m = 7 ∨ m = 8 ∨ m = 9 ∨ m = 10 ∨ m = 11 ∨ m = 12 := by
        omega
      rcases this with rfl | rfl | rfl | rfl | rfl | rfl | rfl | rfl | rfl | rfl | rfl | rfl <;>
        simp [monthDays] at h3 <;> omega
    · omega
  obtain ⟨hne, hns⟩ := month_shape name (List.mem_of_getElem? hn)
  have hday : ∀ pre caps, (run (.seq (.cls digit) (.opt (.cls digit))) ⟨pre, dec d ++ ('.' :: rest), caps⟩).head? =
      some ⟨pre ++ dec d, '.' :: rest, caps⟩ := by
    intro pre caps
    rcases dec_day hd31 with ⟨p, e1, hp⟩ | ⟨p, q, e1, hp, hq⟩
    · rw [e1]
      simp [run, Re.opt, digit_of_isDigit hp, show digit '.' = false by decide]
    · rw [e1]
      simp [run, Re.opt, digit_of_isDigit hp, digit_of_isDigit hq]
  have hrun : matchAt Date.hungarianRe (dec y ++ ('.' :: (str!" " ++ (name ++ (str!" " ++ (dec d ++ ('.' :: rest))))))) =
      some ⟨[] ++ dec y ++ ['.'] ++ str!" " ++ name ++ str!" " ++ dec d ++ ['.'], rest,
        [(3, [] ++ dec y ++ ['.'] ++ str!" " ++ name ++ str!" ", dec d),
         (2, [] ++ dec y ++ ['.'] ++ str!" ", name), (1, [], dec y)]⟩ := by
    unfold matchAt Date.hungarianRe
    simp only [seqs]
    refine run_seq_head (run_cap_text (t := dec y) ?_) (run_seq_head (run_cls_head (by decide))
      (run_seq_head run_lit_head (run_seq_head (run_cap_text (t := name) (run_many1_head hne hns ?_))
      (run_seq_head run_lit_head (run_seq_head (run_cap_text (t := dec d) (hday _ _))
      (run_cls_head (by decide)))))))
    · rw [ey]
      simp [run, digit_of_isDigit ha, digit_of_isDigit hb, digit_of_isDigit hc, digit_of_isDigit he]
    · intro c hc
      simp at hc
      simp [← hc]
  have e1 : dec y ++ str!". " ++ name ++ str!" " ++ dec d ++ str!"." ++ rest =
      dec y ++ ('.' :: (str!" " ++ (name ++ (str!" " ++ (dec d ++ ('.' :: rest)))))) := by simp
  rw [e1]
  unfold Date.fromHungarian
  rw [hrun]
  have hp : parseI32 (dec y) = some ⟨y, by omega⟩ := by
    have := parseI32_decInt ⟨y, by omega⟩
    have h0 : ¬ ((y : Int) < 0) := by omega
    simpa [decInt, h0] using this
  simp only [Option.bind_eq_bind, Option.bind_some, MState.group]
  simp [hp, (month_iff name m).2 ⟨hd.1, hn⟩, parseUnsigned_dec (show d ≤ 4294967295 by omega), ofYmd_iff, hd]

example : Date.fromHungarian str!"2020. február 29., szombat" = some ⟨2020, 2, 29⟩ ∧
    Date.fromHungarian str!"2021. február 29., szombat" = none := by decide +kernel

end HunLaw.Props
