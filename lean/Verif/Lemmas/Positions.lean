import Verif.Lemmas.Abbreviations
import Verif.Model.SemanticInfo

/-! The positions in the results of the grammar are in text order, and so are those of the references made from
them. -/

set_option autoImplicit false

namespace HunLaw.Grammar

open HunLaw Spec P

variable {α β X : Type}

theorem PS.run_bind_lift {p : P α} {f : α → PS β} {i k : Inp} {s u : St} {b : β}
    (h : (PS.lift p >>= f).run i s = (some (b, k), u)) :
    ∃ a j, p.run i = some (a, j) ∧ (f a).run j s = (some (b, k), u) := by
  obtain ⟨a, j, t, h1, h2⟩ := PS.run_bind.1 h
  obtain ⟨h3, rfl⟩ := PS.run_lift.1 h1
  exact ⟨a, j, h3, h2⟩

/-! ### Sequences -/

/-- The elements stand one after the other. -/
inductive Seq (R : Inp → X → Inp → Prop) : Inp → List X → Inp → Prop where
  | nil {i j : Inp} : i.Step j → Seq R i [] j
  | cons {i k j : Inp} {x : X} {l : List X} : R i x k → Seq R k l j → Seq R i (x :: l) j

/-- The element is there or not. -/
def OptR (R : Inp → X → Inp → Prop) (i : Inp) (x : Option X) (j : Inp) : Prop :=
  match x with
  | some x => R i x j
  | none => i.Step j

/-- The relation holds for a larger part of the text. -/
structure Wide (R : Inp → X → Inp → Prop) : Prop where
  left : ∀ {i k x j}, i.Step k → R k x j → R i x j
  right : ∀ {i x k j}, R i x k → k.Step j → R i x j

/-- One that must end where the element ends. -/
def WideLeft (R : Inp → X → Inp → Prop) : Prop := ∀ i k x j, i.Step k → R k x j → R i x j

theorem Seq.left {R : Inp → X → Inp → Prop} (hR : WideLeft R) {i k j : Inp} {l : List X} (h : i.Step k)
    (hs : Seq R k l j) : Seq R i l j := by
  cases hs with
  | nil h1 => exact .nil (h.trans h1)
  | cons h1 h2 => exact .cons (hR _ _ _ _ h h1) h2

theorem seq_wide {R : Inp → X → Inp → Prop} (hR : Wide R) : Wide (Seq R) where
  left h hs := Seq.left (R := R) (fun _ _ _ _ h => hR.left h) h hs
  right := by
    intro i x k j hs h
    induction hs with
    | nil h1 => exact .nil (h1.trans h)
    | cons h1 _ ih => exact .cons h1 (ih h)

theorem optR_wide {R : Inp → X → Inp → Prop} (hR : Wide R) : Wide (OptR R) where
  left := by
    intro i k x j h h1
    cases x with
    | none => exact h.trans h1
    | some x => exact hR.left h h1
  right := by
    intro i x k j h1 h
    cases x with
    | none => exact Inp.Step.trans h1 h
    | some x => exact hR.right h1 h

theorem manyRun_seq {p : P α} {R : Inp → α → Inp → Prop} (hp : ∀ i a j, p.run i = some (a, j) → R i a j) (n : Nat)
    (i : Inp) : Seq R i (P.manyRun p n i).1 (P.manyRun p n i).2 := by
  induction n generalizing i with
  | zero => exact .nil (.refl i)
  | succ n ih =>
    rw [P.manyRun]
    rcases hr : p.run i with _ | ⟨a, j⟩
    · exact .nil (.refl i)
    · simp only
      split
      · exact .cons (hp i a j hr) (ih j)
      · exact .nil (.refl i)

theorem many_seq {p : P α} {R : Inp → α → Inp → Prop} (hp : ∀ i a j, p.run i = some (a, j) → R i a j)
    {i j : Inp} {l : List α} (h : (P.many p).run i = some (l, j)) : Seq R i l j := by
  have := manyRun_seq hp (i.rest.length + 1) i
  change some (P.manyRun p (i.rest.length + 1) i) = _ at h
  simp only [Option.some.injEq] at h
  rw [h] at this
  exact this

theorem call_run {p : P α} {R : Inp → α → Inp → Prop} (hR : WideLeft R)
    (hp : ∀ i a j, p.run i = some (a, j) → R i a j) (i : Inp) (a : α) (j : Inp)
    (h : (call p).run i = some (a, j)) : R i a j := by
  obtain ⟨k, h1, h2⟩ := P.run_call h
  exact hR _ _ _ _ h1 (hp _ _ _ h2)

theorem listOf_seq {p : P α} {R : Inp → α → Inp → Prop} (hR : WideLeft R)
    (hp : ∀ i a j, p.run i = some (a, j) → R i a j)
    {i j : Inp} {l : List α} (h : (listOf p).run i = some (l, j)) : Seq R i l j := by
  obtain ⟨a, k, h1, h⟩ := P.run_bind.1 h
  obtain ⟨l', m, h2, h⟩ := P.run_bind.1 h
  obtain ⟨rfl, rfl⟩ := P.run_pure.1 h
  refine .cons (call_run hR hp _ _ _ h1) (many_seq ?_ h2)
  intro i a j h
  obtain ⟨_, k, h3, h⟩ := P.run_bind.1 h
  exact hR _ _ _ _ (P.adv _ _ _ _ h3) (call_run hR hp _ _ _ h)

theorem opt_optR {p : P α} {R : Inp → α → Inp → Prop} (hp : ∀ i a j, p.run i = some (a, j) → R i a j)
    {i j : Inp} {x : Option α} (h : (opt p).run i = some (x, j)) : OptR R i x j := by
  rcases P.run_opt h with ⟨b, rfl, h'⟩ | ⟨rfl, rfl⟩
  · exact hp _ _ _ h'
  · exact .refl j

/-- The element has a position in this part of the text. -/
def At (position : X → Pos) (i : Inp) (x : X) (j : Inp) : Prop := Marks i [position x] j

theorem at_wide (position : X → Pos) : Wide (At position) where
  left h h1 := Marks.left h h1
  right h1 h := Marks.right h1 h

theorem Wide.wideLeft {R : Inp → X → Inp → Prop} (h : Wide R) : WideLeft R := fun _ _ _ _ h1 h2 => h.left h1 h2

/-! ### Rules which take something -/

theorem strict_number : number.Strict := strict_slice (strict_many1 (strict_char _))

theorem strict_articleId : articleId.Strict := strict_slice (strict_bind_left strict_number)

theorem strict_articlePart : articlePart.Strict :=
  strict_positioned <| strict_bind_right fun _ => strict_bind_left <|
    strict_alt (strict_bind_left (strict_call strict_articleId)) (strict_bind_left (strict_call strict_articleId))

theorem strict_tok {s : Str} (h : s ≠ []) : (tok s).Strict := strict_call (strict_lit h)

theorem strict_paragraphPart : paragraphPart.Strict :=
  strict_positioned <| strict_bind_left <|
    strict_alt (strict_bind_left (strict_tok (by simp))) (strict_bind_left (strict_tok (by simp)))

theorem strict_suffixChar : suffixChar.Strict :=
  strict_alt (strict_lits (by simp)) (strict_bind_left (strict_char _))

theorem strict_alphabeticPointPart : alphabeticPointPart.Strict :=
  strict_positioned <| strict_bind_left <|
    strict_alt (strict_bind_left (strict_call (strict_slice strict_suffixChar)))
      (strict_bind_left (strict_call (strict_slice strict_suffixChar)))

theorem strict_dottedPart {p : P Str} (hp : p.Strict) : (dottedPart p).Strict :=
  strict_positioned <| strict_bind_left <|
    strict_alt (strict_bind_left (strict_call hp)) (strict_bind_left (strict_call hp))

theorem strict_numericPointId : numericPointId.Strict := strict_slice (strict_bind_left strict_number)

theorem strict_alphabeticSubpointId : alphabeticSubpointId.Strict :=
  strict_slice (strict_bind_left (strict_char _))

theorem strict_alphabeticSubpointPart : alphabeticSubpointPart.Strict :=
  strict_positioned <| strict_bind_left <|
    strict_alt (strict_bind_left (strict_call strict_alphabeticSubpointId))
      (strict_bind_left (strict_call strict_alphabeticSubpointId))

theorem strict_singleArticle : singleArticle.Strict :=
  strict_positioned <| strict_bind_left <| strict_call strict_articlePart

theorem strict_actId : actId.Strict := strict_positioned <| strict_bind_left <| strict_call strict_number

/-! ### Parts -/

theorem positioned_at {p : P (Pos → α)} (position : α → Pos) (hs : (positioned p).Strict)
    (hp : ∀ i f j, p.run i = some (f, j) → ∀ q, position (f q) = q) (i : Inp) (a : α) (j : Inp)
    (h : (positioned p).run i = some (a, j)) : At position i a j := by
  have hlt := hs _ _ _ h
  have hst := (positioned p).adv _ _ _ h
  obtain ⟨f, h1, rfl⟩ := P.run_positioned h
  unfold At
  rw [hp _ _ _ h1]
  exact .one (.refl i) hst hlt (.refl j)

theorem articlePart_at : ∀ i a j, articlePart.run i = some (a, j) → At ArticlePart.position i a j :=
  positioned_at _ strict_articlePart fun i f j h q => by
    obtain ⟨_, _, -, h⟩ := P.run_bind.1 h
    obtain ⟨_, _, -, h⟩ := P.run_bind.1 h
    obtain ⟨rfl, -⟩ := P.run_pure.1 h
    rfl

theorem singleArticle_at : ∀ i a j, singleArticle.run i = some (a, j) → At SingleArticle.position i a j :=
  positioned_at _ strict_singleArticle fun i f j h q => by
    obtain ⟨_, _, -, h⟩ := P.run_bind.1 h
    obtain ⟨_, _, -, h⟩ := P.run_bind.1 h
    obtain ⟨rfl, -⟩ := P.run_pure.1 h
    rfl

theorem paragraphPart_at : ∀ i a j, paragraphPart.run i = some (a, j) → At Part.position i a j :=
  positioned_at _ strict_paragraphPart fun i f j h q => by
    obtain ⟨_, _, -, h⟩ := P.run_bind.1 h
    obtain ⟨rfl, -⟩ := P.run_pure.1 h
    rfl

theorem alphabeticPointPart_at : ∀ i a j, alphabeticPointPart.run i = some (a, j) → At Part.position i a j :=
  positioned_at _ strict_alphabeticPointPart fun i f j h q => by
    obtain ⟨_, _, -, h⟩ := P.run_bind.1 h
    obtain ⟨rfl, -⟩ := P.run_pure.1 h
    rfl

theorem dottedPart_at {p : P Str} (hp : p.Strict) :
    ∀ i a j, (dottedPart p).run i = some (a, j) → At Part.position i a j :=
  positioned_at _ (strict_dottedPart hp) fun i f j h q => by
    obtain ⟨_, _, -, h⟩ := P.run_bind.1 h
    obtain ⟨rfl, -⟩ := P.run_pure.1 h
    rfl

theorem alphabeticSubpointPart_at : ∀ i a j, alphabeticSubpointPart.run i = some (a, j) → At Part.position i a j :=
  positioned_at _ strict_alphabeticSubpointPart fun i f j h q => by
    obtain ⟨_, _, -, h⟩ := P.run_bind.1 h
    obtain ⟨rfl, -⟩ := P.run_pure.1 h
    rfl

/-- The parts stand one after the other, and there are some. -/
def Parts (i : Inp) (l : List Part) (j : Inp) : Prop := l ≠ [] ∧ Seq (At Part.position) i l j
/-- The parts stand one after the other, and there are some. -/
def Articles (i : Inp) (l : List ArticlePart) (j : Inp) : Prop := l ≠ [] ∧ Seq (At ArticlePart.position) i l j

theorem parts_wide : Wide Parts where
  left h h1 := ⟨h1.1, (seq_wide (at_wide _)).left h h1.2⟩
  right h1 h := ⟨h1.1, (seq_wide (at_wide _)).right h1.2 h⟩
theorem articles_wide : Wide Articles where
  left h h1 := ⟨h1.1, (seq_wide (at_wide _)).left h h1.2⟩
  right h1 h := ⟨h1.1, (seq_wide (at_wide _)).right h1.2 h⟩

/-- `listOf p`, a suffix, and the list. -/
theorem listSuffix_seq {p : P α} {q : P β} {R : Inp → α → Inp → Prop} (hR : Wide R)
    (hp : ∀ i a j, p.run i = some (a, j) → R i a j) :
    ∀ i l j, (do let l ← listOf p; let _ ← call q; pure l : P (List α)).run i = some (l, j) → l ≠ [] ∧ Seq R i l j := by
  intro i l j h
  obtain ⟨l', k, h1, h⟩ := P.run_bind.1 h
  obtain ⟨_, m, h2, h⟩ := P.run_bind.1 h
  obtain ⟨rfl, rfl⟩ := P.run_pure.1 h
  refine ⟨?_, (seq_wide hR).right (listOf_seq hR.wideLeft hp h1) (P.adv _ _ _ _ h2)⟩
  obtain ⟨a, k, -, h1⟩ := P.run_bind.1 h1
  obtain ⟨l', m, -, h1⟩ := P.run_bind.1 h1
  obtain ⟨rfl, -⟩ := P.run_pure.1 h1
  simp

theorem articleReference_seq : ∀ i l j, articleReference.run i = some (l, j) → Articles i l j :=
  listSuffix_seq (at_wide _) articlePart_at
theorem paragraphReference_seq : ∀ i l j, paragraphReference.run i = some (l, j) → Parts i l j :=
  listSuffix_seq (at_wide _) paragraphPart_at
theorem alphabeticPointReference_seq : ∀ i l j, alphabeticPointReference.run i = some (l, j) → Parts i l j :=
  listSuffix_seq (at_wide _) alphabeticPointPart_at
theorem numericPointReference_seq : ∀ i l j, numericPointReference.run i = some (l, j) → Parts i l j :=
  listSuffix_seq (at_wide _) (dottedPart_at strict_numericPointId)
theorem alphabeticSubpointReference_seq : ∀ i l j, alphabeticSubpointReference.run i = some (l, j) → Parts i l j :=
  listSuffix_seq (at_wide _) alphabeticSubpointPart_at
theorem numericSubpointReference_seq : ∀ i l j, numericSubpointReference.run i = some (l, j) → Parts i l j :=
  listSuffix_seq (at_wide _) (dottedPart_at strict_number)

/-! ### References -/

/-- The parts of a reference below the article, in the order in which the references are made. -/
def TailR (i : Inp) (t : Tail) (j : Inp) : Prop :=
  ∃ a b c d, OptR Parts i t.paragraph a ∧ OptR Parts a t.numericPoint b ∧ OptR Parts b t.alphabeticPoint c ∧
    OptR Parts c t.numericSubpoint d ∧ OptR Parts d t.alphabeticSubpoint j

theorem tailR_left {i k j : Inp} {t : Tail} (h : i.Step k) (ht : TailR k t j) : TailR i t j := by
  obtain ⟨a, b, c, d, h1, h2⟩ := ht
  exact ⟨a, b, c, d, (optR_wide parts_wide).left h h1, h2⟩

/-- Only points. -/
def PointR (i : Inp) (t : Tail) (j : Inp) : Prop :=
  ∃ l, Parts i l j ∧ (t = { alphabeticPoint := some l } ∨ t = { numericPoint := some l })

/-- Only subpoints. -/
def SubpointR (i : Inp) (t : Tail) (j : Inp) : Prop :=
  ∃ l, Parts i l j ∧ (t = { alphabeticSubpoint := some l } ∨ t = { numericSubpoint := some l })

/-- These, or nothing. -/
def OrEmpty (R : Inp → Tail → Inp → Prop) (i : Inp) (t : Tail) (j : Inp) : Prop := R i t j ∨ (t = {} ∧ i.Step j)

theorem withSubpoint_run : ∀ i t j, withSubpoint.run i = some (t, j) → SubpointR i t j := by
  intro i t j h
  rcases P.run_alt h with h | h <;> obtain ⟨l, k, h1, h⟩ := P.run_bind.1 h <;> obtain ⟨rfl, rfl⟩ := P.run_pure.1 h
  · exact ⟨l, call_run parts_wide.wideLeft alphabeticSubpointReference_seq _ _ _ h1, .inl rfl⟩
  · exact ⟨l, call_run parts_wide.wideLeft numericSubpointReference_seq _ _ _ h1, .inr rfl⟩

theorem pointTail_run : ∀ i t j, pointTail.run i = some (t, j) → PointR i t j := by
  intro i t j h
  rcases P.run_alt h with h | h <;> obtain ⟨l, k, h1, h⟩ := P.run_bind.1 h <;> obtain ⟨rfl, rfl⟩ := P.run_pure.1 h
  · exact ⟨l, call_run parts_wide.wideLeft alphabeticPointReference_seq _ _ _ h1, .inl rfl⟩
  · exact ⟨l, call_run parts_wide.wideLeft numericPointReference_seq _ _ _ h1, .inr rfl⟩

theorem optTail_run {p : P Tail} {R : Inp → Tail → Inp → Prop} (hp : ∀ i t j, p.run i = some (t, j) → R i t j)
    {i j : Inp} {t : Tail} (h : (optTail p).run i = some (t, j)) : OrEmpty R i t j := by
  obtain ⟨o, k, h1, h⟩ := P.run_bind.1 h
  obtain ⟨rfl, rfl⟩ := P.run_pure.1 h
  rcases P.run_opt h1 with ⟨b, rfl, h'⟩ | ⟨rfl, rfl⟩
  · exact .inl (hp _ _ _ h')
  · exact .inr ⟨rfl, .refl j⟩

/-- Paragraphs, points and subpoints together. -/
theorem tailR_of {i a b c : Inp} {p : Option (List Part)} {t s : Tail} (hp : OptR Parts i p a)
    (ht : OrEmpty PointR a t b) (hs : OrEmpty SubpointR b s c) :
    TailR i ⟨p, t.alphabeticPoint, t.numericPoint, s.alphabeticSubpoint, s.numericSubpoint⟩ c := by
  rcases ht with ⟨l, hl, rfl | rfl⟩ | ⟨rfl, hl⟩ <;> rcases hs with ⟨m, hm, rfl | rfl⟩ | ⟨rfl, hm⟩
  · exact ⟨a, a, b, b, hp, .refl a, hl, .refl b, hm⟩
  · exact ⟨a, a, b, c, hp, .refl a, hl, hm, .refl c⟩
  · exact ⟨a, a, b, b, hp, .refl a, hl, .refl b, hm⟩
  · exact ⟨a, b, b, b, hp, hl, .refl b, .refl b, hm⟩
  · exact ⟨a, b, b, c, hp, hl, .refl b, hm, .refl c⟩
  · exact ⟨a, b, b, b, hp, hl, .refl b, .refl b, hm⟩
  · exact ⟨a, a, b, b, hp, .refl a, hl, .refl b, hm⟩
  · exact ⟨a, a, b, c, hp, .refl a, hl, hm, .refl c⟩
  · exact ⟨a, a, b, b, hp, .refl a, hl, .refl b, hm⟩

/-- Points and subpoints together. -/
def WithPointR (i : Inp) (t : Tail) (j : Inp) : Prop :=
  ∃ p s k, OrEmpty PointR i p k ∧ OrEmpty SubpointR k s j ∧ t.paragraph = none ∧ t.alphabeticPoint = p.alphabeticPoint ∧
    t.numericPoint = p.numericPoint ∧ t.alphabeticSubpoint = s.alphabeticSubpoint ∧
    t.numericSubpoint = s.numericSubpoint

theorem WithPointR.tail {i k j : Inp} {t : Tail} {p : Option (List Part)} (hp : OptR Parts i p k)
    (ht : WithPointR k t j) : TailR i { t with paragraph := p } j := by
  obtain ⟨q, s, m, h1, h2, -, h4, h5, h6, h7⟩ := ht
  have := tailR_of hp h1 h2
  simpa only [TailR, ← h4, ← h5, ← h6, ← h7] using this

theorem WithPointR.tail' {i j : Inp} {t : Tail} (ht : WithPointR i t j) : TailR i t j := by
  have hn : t.paragraph = none := ht.choose_spec.choose_spec.choose_spec.2.2.1
  have := WithPointR.tail (p := none) (Inp.Step.refl i) ht
  rw [← hn] at this
  exact this

theorem withPointR_empty {i j : Inp} (h : i.Step j) : WithPointR i {} j :=
  ⟨{}, {}, i, .inr ⟨rfl, .refl i⟩, .inr ⟨rfl, h⟩, rfl, rfl, rfl, rfl, rfl⟩

theorem withPoint_run : ∀ i t j, withPoint.run i = some (t, j) → WithPointR i t j := by
  intro i t j h
  obtain ⟨p, k, h1, h⟩ := P.run_bind.1 h
  obtain ⟨s, m, h2, h⟩ := P.run_bind.1 h
  obtain ⟨rfl, rfl⟩ := P.run_pure.1 h
  have hp := pointTail_run _ _ _ h1
  refine ⟨p, s, k, .inl hp, optTail_run withSubpoint_run h2, ?_, rfl, rfl, rfl, rfl⟩
  obtain ⟨l, -, rfl | rfl⟩ := hp <;> rfl

theorem optWithPoint_run {i j : Inp} {t : Tail} (h : (optTail withPoint).run i = some (t, j)) : WithPointR i t j := by
  rcases optTail_run withPoint_run h with h | ⟨rfl, h'⟩
  · exact h
  · exact withPointR_empty h'

theorem withParagraph_run : ∀ i t j, withParagraph.run i = some (t, j) → TailR i t j := by
  intro i t j h
  obtain ⟨l, k, h1, h⟩ := P.run_bind.1 h
  obtain ⟨t', m, h2, h⟩ := P.run_bind.1 h
  obtain ⟨rfl, rfl⟩ := P.run_pure.1 h
  exact WithPointR.tail (p := some l) (call_run parts_wide.wideLeft paragraphReference_seq _ _ _ h1) (optWithPoint_run h2)

/-- There is something below the article. -/
def Tail.has (t : Tail) : Prop :=
  t.paragraph ≠ none ∨ t.numericPoint ≠ none ∨ t.alphabeticPoint ≠ none ∨ t.numericSubpoint ≠ none ∨
    t.alphabeticSubpoint ≠ none

theorem withParagraph_has {i j : Inp} {t : Tail} (h : withParagraph.run i = some (t, j)) : t.has := by
  obtain ⟨l, k, h1, h⟩ := P.run_bind.1 h
  obtain ⟨t', m, h2, h⟩ := P.run_bind.1 h
  obtain ⟨rfl, rfl⟩ := P.run_pure.1 h
  exact .inl (by simp)

theorem pointTail_has {i j : Inp} {t : Tail} (h : pointTail.run i = some (t, j)) :
    t.numericPoint ≠ none ∨ t.alphabeticPoint ≠ none := by
  obtain ⟨l, -, rfl | rfl⟩ := pointTail_run _ _ _ h
  · exact .inr (by simp)
  · exact .inl (by simp)

theorem withPoint_has {i j : Inp} {t : Tail} (h : withPoint.run i = some (t, j)) : t.has := by
  obtain ⟨p, k, h1, h⟩ := P.run_bind.1 h
  obtain ⟨s, m, h2, h⟩ := P.run_bind.1 h
  obtain ⟨rfl, rfl⟩ := P.run_pure.1 h
  rcases pointTail_has h1 with h | h
  · exact .inr (.inl h)
  · exact .inr (.inr (.inl h))

theorem withSubpoint_has {i j : Inp} {t : Tail} (h : withSubpoint.run i = some (t, j)) : t.has := by
  obtain ⟨l, -, rfl | rfl⟩ := withSubpoint_run _ _ _ h
  · exact .inr (.inr (.inr (.inr (by simp))))
  · exact .inr (.inr (.inr (.inl (by simp))))

/-- A reference: its parts are in order and it ends at `j`. -/
def RefR (i : Inp) (r : Reference) (j : Inp) : Prop :=
  r.position.fin = j.pos ∧ ∃ a p, OptR Articles i r.article p ∧ TailR p a j ∧
    r = a.reference r.article r.position ∧ (r.article ≠ none ∨ a.has)

theorem refR_left : WideLeft RefR := by
  intro i k r j h hr
  obtain ⟨h1, a, p, h2, h3⟩ := hr
  exact ⟨h1, a, p, (optR_wide articles_wide).left h h2, h3⟩

theorem reference_run : ∀ i r j, reference.run i = some (r, j) → RefR i r j := by
  intro i r j h
  obtain ⟨f, h', rfl⟩ := P.run_positioned h
  obtain ⟨x, k, h1, h⟩ := P.run_bind.1 h'
  obtain ⟨rfl, rfl⟩ := P.run_pure.1 h
  refine ⟨rfl, x.2, ?_⟩
  suffices ∃ p, OptR Articles i x.1 p ∧ TailR p x.2 j ∧ (x.1 ≠ none ∨ x.2.has) by
    obtain ⟨p, h1, h2, h3⟩ := this
    exact ⟨p, h1, h2, rfl, h3⟩
  rcases P.run_alt h1 with h | h
  · obtain ⟨a, k, h3, h⟩ := P.run_bind.1 h
    obtain ⟨t, m, h2, h⟩ := P.run_bind.1 h
    obtain ⟨rfl, rfl⟩ := P.run_pure.1 h
    exact ⟨k, call_run articles_wide.wideLeft articleReference_seq _ _ _ h3, withParagraph_run _ _ _ h2, .inl (by simp)⟩
  rcases P.run_alt h with h | h
  · obtain ⟨a, k, h3, h⟩ := P.run_bind.1 h
    obtain ⟨t, m, h2, h⟩ := P.run_bind.1 h
    obtain ⟨rfl, rfl⟩ := P.run_pure.1 h
    exact ⟨k, call_run articles_wide.wideLeft articleReference_seq _ _ _ h3, (optWithPoint_run h2).tail', .inl (by simp)⟩
  · obtain ⟨t, m, h2, h⟩ := P.run_bind.1 h
    obtain ⟨rfl, rfl⟩ := P.run_pure.1 h
    refine ⟨i, Inp.Step.refl i, ?_⟩
    rcases P.run_alt h2 with h | h
    · exact ⟨withParagraph_run _ _ _ h, .inr (withParagraph_has h)⟩
    rcases P.run_alt h with h | h
    · exact ⟨(withPoint_run _ _ _ h).tail', .inr (withPoint_has h)⟩
    · refine ⟨?_, .inr (withSubpoint_has h)⟩
      have hs := withSubpoint_run _ _ _ h
      have ht : t.paragraph = none ∧ t.alphabeticPoint = none ∧ t.numericPoint = none := by
        obtain ⟨l, -, rfl | rfl⟩ := hs <;> exact ⟨rfl, rfl, rfl⟩
      exact (WithPointR.tail' ⟨{}, t, i, .inr ⟨rfl, .refl i⟩, .inl hs, ht.1, ht.2.1, ht.2.2, rfl, rfl⟩)

/-- An insertion reference: its parts are in order and it ends at `j`. -/
def InsR (i : Inp) (r : InsertionReference) (j : Inp) : Prop :=
  r.position.fin = j.pos ∧ ∃ a p, Seq Articles i r.article p ∧ TailR p a j ∧
    r = a.insertion r.article r.position ∧ (r.article ≠ [] ∨ a.has)

theorem insR_left : WideLeft InsR := by
  intro i k r j h hr
  obtain ⟨h1, a, p, h2, h3⟩ := hr
  exact ⟨h1, a, p, (seq_wide articles_wide).left h h2, h3⟩

theorem azArticle_run : ∀ i l j, azArticle.run i = some (l, j) → Articles i l j := by
  intro i l j h
  obtain ⟨_, k, h1, h⟩ := P.run_bind.1 h
  exact articles_wide.left (P.adv _ _ _ _ h1) (call_run articles_wide.wideLeft articleReference_seq _ _ _ h)

theorem callParagraph_run : ∀ i l j, (call paragraphReference).run i = some (l, j) → Parts i l j :=
  call_run parts_wide.wideLeft paragraphReference_seq

theorem insertion_parts {i j : Inp} {x : List (List ArticlePart) × Tail}
    (h : (insertion1 <|> insertion2 <|> insertion3 <|> insertion4 <|> insertion5).run i = some (x, j)) :
    ∃ p, Seq Articles i x.1 p ∧ TailR p x.2 j ∧ (x.1 ≠ [] ∨ x.2.has) := by
  rcases P.run_alt h with h | h
  · obtain ⟨_, k, h1, h⟩ := P.run_bind.1 h
    obtain ⟨a, m, h2, h⟩ := P.run_bind.1 h
    obtain ⟨p, n, h3, h⟩ := P.run_bind.1 h
    obtain ⟨rfl, rfl⟩ := P.run_pure.1 h
    refine ⟨m, .cons (articles_wide.left (P.adv _ _ _ _ h1)
      (call_run articles_wide.wideLeft articleReference_seq _ _ _ h2)) (.nil (.refl m)), ?_, .inl (by simp)⟩
    exact WithPointR.tail (p := some p) (callParagraph_run _ _ _ h3) (withPointR_empty (.refl j))
  rcases P.run_alt h with h | h
  · obtain ⟨_, k, h1, h⟩ := P.run_bind.1 h
    obtain ⟨a, m, h2, h⟩ := P.run_bind.1 h
    obtain ⟨b, n, h3, h⟩ := P.run_bind.1 h
    obtain ⟨rfl, rfl⟩ := P.run_pure.1 h
    refine ⟨j, .cons (articles_wide.left (P.adv _ _ _ _ h1)
      (call_run articles_wide.wideLeft articleReference_seq _ _ _ h2)) ?_, (withPointR_empty (.refl j)).tail', .inl (by simp)⟩
    rcases P.run_opt h3 with ⟨b, rfl, h'⟩ | ⟨rfl, rfl⟩
    · obtain ⟨_, k, h1, h⟩ := P.run_bind.1 h'
      exact .cons (articles_wide.left (P.adv _ _ _ _ h1)
        (call_run articles_wide.wideLeft articleReference_seq _ _ _ h)) (.nil (.refl j))
    · exact .nil (.refl j)
  rcases P.run_alt h with h | h
  · obtain ⟨a, k, h1, h⟩ := P.run_bind.1 h
    obtain ⟨_, m, h2, h⟩ := P.run_bind.1 h
    obtain ⟨p, n, h3, h⟩ := P.run_bind.1 h
    obtain ⟨rfl, rfl⟩ := P.run_pure.1 h
    refine ⟨k, ?_, WithPointR.tail (p := some p) (parts_wide.left (P.adv _ _ _ _ h2) (callParagraph_run _ _ _ h3))
      (withPointR_empty (.refl j)), .inr (.inl (by simp))⟩
    rcases P.run_opt h1 with ⟨b, rfl, h'⟩ | ⟨rfl, rfl⟩
    · rcases P.run_alt h' with h | h
      · obtain ⟨a, k', h1, h⟩ := P.run_bind.1 h
        obtain ⟨rfl, rfl⟩ := P.run_pure.1 h
        exact .cons (azArticle_run _ _ _ h1) (.nil (.refl _))
      · have hs := P.adv _ _ _ _ h
        obtain ⟨a, k', -, h⟩ := P.run_bind.1 h
        obtain ⟨rfl, rfl⟩ := P.run_pure.1 h
        exact .nil hs
    · exact .nil (.refl _)
  rcases P.run_alt h with h | h
  · obtain ⟨a, k, h1, h⟩ := P.run_bind.1 h
    obtain ⟨_, m, h2, h⟩ := P.run_bind.1 h
    obtain ⟨t, n, h3, h⟩ := P.run_bind.1 h
    obtain ⟨rfl, rfl⟩ := P.run_pure.1 h
    have h2 := P.adv _ _ _ _ h2
    have ht := pointTail_run _ _ _ h3
    have hsub : t.alphabeticSubpoint = none ∧ t.numericSubpoint = none := by
      obtain ⟨l, -, rfl | rfl⟩ := ht <;> exact ⟨rfl, rfl⟩
    suffices ∃ p, Seq Articles i (a.getD ([], none)).1 p ∧ OptR Parts p (a.getD ([], none)).2 m by
      obtain ⟨p, ha, hp⟩ := this
      have hh := pointTail_has h3
      refine ⟨p, ha, ?_, .inr (.inr (hh.imp id .inl))⟩
      have := tailR_of hp (.inl ht) (.inr ⟨rfl, .refl j⟩)
      simpa only [TailR, hsub.1, hsub.2] using this
    rcases P.run_opt h1 with ⟨b, rfl, h'⟩ | ⟨rfl, rfl⟩
    · rcases P.run_alt h' with h | h
      · obtain ⟨a, k', h5, h⟩ := P.run_bind.1 h
        obtain ⟨p, k'', h4, h⟩ := P.run_bind.1 h
        obtain ⟨rfl, rfl⟩ := P.run_pure.1 h
        exact ⟨k', .cons (azArticle_run _ _ _ h5) (.nil (.refl _)),
          (optR_wide parts_wide).right (opt_optR callParagraph_run h4) h2⟩
      have hs := P.adv _ _ _ _ h
      rcases P.run_alt h with h | h <;> obtain ⟨a, k', -, h⟩ := P.run_bind.1 h <;>
        obtain ⟨rfl, rfl⟩ := P.run_pure.1 h <;> exact ⟨_, .nil hs, h2⟩
    · exact ⟨_, .nil (.refl _), h2⟩
  · obtain ⟨a, k, h1, h⟩ := P.run_bind.1 h
    obtain ⟨p, m, h2, h⟩ := P.run_bind.1 h
    obtain ⟨t, n, h3, h⟩ := P.run_bind.1 h
    obtain ⟨_, n', h4, h⟩ := P.run_bind.1 h
    obtain ⟨s, n'', h5, h⟩ := P.run_bind.1 h
    obtain ⟨rfl, rfl⟩ := P.run_pure.1 h
    refine ⟨k, .cons (azArticle_run _ _ _ h1) (.nil (.refl _)), ?_, .inl (by simp)⟩
    have hs := withSubpoint_run _ _ _ h5
    have hs : SubpointR n s j := by
      obtain ⟨l, hl, hs⟩ := hs
      exact ⟨l, parts_wide.left (P.adv _ _ _ _ h4) hl, hs⟩
    exact tailR_of (opt_optR callParagraph_run h2) (.inl (pointTail_run _ _ _ h3)) (.inl hs)

theorem insertionReference_run : ∀ i r j, insertionReference.run i = some (r, j) → InsR i r j := by
  intro i r j h
  obtain ⟨f, h', rfl⟩ := P.run_positioned h
  obtain ⟨x, k, h1, h⟩ := P.run_bind.1 h'
  obtain ⟨rfl, rfl⟩ := P.run_pure.1 h
  obtain ⟨p, h1, h2, h3⟩ := insertion_parts h1
  exact ⟨rfl, x.2, p, h1, h2, rfl, h3⟩

/-! ### Acts -/

/-- The position of an act reference. -/
def ActReference.position : ActReference → Pos
  | .actId x _ => x.position
  | .abbreviation _ p => p

/-- The state of the parser: it is in the text, and the abbreviations it knows are those supplied and those
introduced in the text. -/
structure Good (o : Inp) (known : List Str) (i : Inp) (s : St) : Prop where
  step : o.Step i
  ne : ∀ a ∈ known, a ≠ []
  ok : ∃ new, s.known = known ++ new ∧ ∀ a ∈ new, Introduces o.rest a

variable {o : Inp} {known : List Str}

theorem Good.grown {i j : Inp} {s t : St} (h : Good o known i s) (hg : Grown i.rest s t) (hs : i.Step j) :
    Good o known j t := by
  obtain ⟨c, hc, -⟩ := h.step
  obtain ⟨old, ho, hold⟩ := h.ok
  obtain ⟨new, hn, hnew⟩ := hg
  refine ⟨h.step.trans hs, h.ne, old ++ new, by rw [hn, ho, List.append_assoc], fun a ha => ?_⟩
  rcases List.mem_append.1 ha with ha | ha
  · exact hold a ha
  · exact (hnew a ha).mono c hc

theorem Good.run {p : PS α} (hp : PS.Grows p) {i j : Inp} {s t : St} {a : α} (h : Good o known i s)
    (hr : p.run i s = (some (a, j), t)) : Good o known j t := by
  have := hp i s
  rw [hr] at this
  exact h.grown this (p.adv _ _ _ _ _ hr)

theorem Good.fail {p : PS α} (hp : PS.Grows p) {i : Inp} {s t : St} (h : Good o known i s)
    (hr : p.run i s = (none, t)) : Good o known i t := by
  have := hp i s
  rw [hr] at this
  exact h.grown this (.refl i)

theorem Good.move {i j : Inp} {s : St} (h : Good o known i s) (hs : i.Step j) : Good o known j s :=
  ⟨h.step.trans hs, h.ne, h.ok⟩

/-- An act reference at a place in the text; an abbreviation is a known one and stands there. -/
def ActR (o : Inp) (known : List Str) (i : Inp) (x : ActReference) (j : Inp) : Prop :=
  ∃ m n, i.Step m ∧ m.Step n ∧ m.pos < n.pos ∧ n.Step j ∧ x.position = ⟨m.pos, n.pos⟩ ∧
    (∀ a p, x = .abbreviation a p → (parseAbbreviation known m.rest = some a ∨
      parseAbbreviation known m.rest = none ∧ Introduces o.rest a) ∧ m.rest = a ++ n.rest) ∧
    ∀ y a, x = .actId y (some a) → Introduces o.rest a

theorem actR_wide : Wide (ActR o known) where
  left := by
    rintro i k x j h ⟨m, n, h1, h2⟩
    exact ⟨m, n, h.trans h1, h2⟩
  right := by
    rintro i x k j ⟨m, n, h1, h2, h3, h4, h5⟩ h
    exact ⟨m, n, h1, h2, h3, h4.trans h, h5⟩

theorem ActR.marks {i j : Inp} {x : ActReference} (h : ActR o known i x j) : Marks i [x.position] j := by
  obtain ⟨m, n, h1, h2, h3, h4, h5, -⟩ := h
  rw [h5]
  exact .one h1 h2 h3 h4

theorem actId_at : ∀ i a j, actId.run i = some (a, j) → At GActId.position i a j :=
  positioned_at _ strict_actId fun i f j h q => by
    obtain ⟨_, _, -, h⟩ := P.run_bind.1 h
    obtain ⟨_, _, -, h⟩ := P.run_bind.1 h
    obtain ⟨_, _, -, h⟩ := P.run_bind.1 h
    obtain ⟨_, _, -, h⟩ := P.run_bind.1 h
    obtain ⟨_, _, -, h⟩ := P.run_bind.1 h
    obtain ⟨_, _, -, h⟩ := P.run_bind.1 h
    obtain ⟨rfl, -⟩ := P.run_pure.1 h
    rfl

theorem checkedActId_run {i j : Inp} {s t : St} {x : ActReference} (ho : o.Step i) (h : checkedActId.run i s = (some (x, j), t)) :
    ActR o known i x j := by
  change checkedRun i s = _ at h
  unfold checkedRun at h
  rcases hr : actIdWithFromNowOn.run i with _ | ⟨⟨y, a⟩, k⟩ <;> rw [hr] at h
  · simp at h
  · simp only [Prod.mk.injEq, Option.some.injEq] at h
    obtain ⟨⟨rfl, rfl⟩, rfl⟩ := h
    obtain ⟨y', k', h1, h⟩ := P.run_bind.1 hr
    obtain ⟨b, k'', h2, h⟩ := P.run_bind.1 h
    obtain ⟨h3, rfl⟩ := P.run_pure.1 h
    simp only [Prod.mk.injEq] at h3
    obtain ⟨rfl, h3⟩ := h3
    have hnew : ∀ b', a = some b' → Introduces o.rest b' := by
      rintro b' rfl
      rcases P.run_opt h2 with ⟨c, rfl, h4⟩ | ⟨rfl, -⟩
      · obtain ⟨d, hd, -⟩ := ho.trans (P.adv _ _ _ _ h1)
        have hc : c = some b' := by simpa using h3.symm
        subst hc
        exact (run_fromNowOn h4).mono d hd
      · simp at h3
    have hm := call_run (at_wide _).wideLeft actId_at _ _ _ h1
    have hs := P.adv _ _ _ _ h2
    have hm : Marks i [y.position] k := Marks.right hm hs
    generalize hy : y.position = q at hm
    cases hm with
    | cons a1 a2 a3 a4 => 
      refine ⟨_, _, a1, a2, a3, a4.step, hy, fun a p h => by simp at h, fun z b h => ?_⟩
      simp only [ActReference.actId.injEq] at h
      exact hnew b h.2

theorem abbreviation_run {i j : Inp} {s t : St} {x : ActReference} (hg : Good o known i s)
    (h : (PS.call abbreviation).run i s = (some (x, j), t)) : ActR o known i x j := by
  obtain ⟨_, k, h1, h⟩ := PS.run_bind_lift h
  change positionedAbbreviationRun k s = _ at h
  unfold positionedAbbreviationRun at h
  rcases hr : (PS.call abbreviationContent).run k s with ⟨_ | ⟨a, m⟩, v⟩ <;> rw [hr] at h
  · simp at h
  · simp only [Prod.mk.injEq, Option.some.injEq] at h
    obtain ⟨⟨rfl, rfl⟩, rfl⟩ := h
    obtain ⟨_, k', h2, hc⟩ := PS.run_bind_lift hr
    have hk : k' = k := by
      obtain ⟨-, hk⟩ := run_ws h1
      change some ((), k.drop (k.rest.takeWhile isWs).length) = _ at h2
      simp only [Option.some.injEq, Prod.mk.injEq, true_and] at h2
      have : k.rest.takeWhile isWs = [] := by
        cases hr : k.rest with
        | nil => rfl
        | cons c l =>
          have := hk c (by rw [hr]; rfl)
          simp [this]
      rw [this] at h2
      simpa [Inp.drop, byteLen] using h2.symm
    subst hk
    change abbreviationRun k' s = _ at hc
    unfold abbreviationRun at hc
    split at hc
    · rename_i b hb
      simp only [Prod.mk.injEq, Option.some.injEq] at hc
      obtain ⟨⟨rfl, rfl⟩, rfl⟩ := hc
      have hpre := List.isPrefixOf_iff_prefix.1 (List.find?_some (p := fun a : Str => a.isPrefixOf k'.rest) hb)
      obtain ⟨new, hn, hnew⟩ := hg.ok
      have hor : parseAbbreviation known k'.rest = some b ∨
          parseAbbreviation known k'.rest = none ∧ Introduces o.rest b := by
        unfold parseAbbreviation at hb ⊢
        rw [hn, List.find?_append] at hb
        rcases hf : known.find? (fun a => a.isPrefixOf k'.rest) with _ | x
        · rw [hf, Option.none_or] at hb
          exact .inr ⟨hf, hnew b (List.mem_of_find?_eq_some hb)⟩
        · rw [hf, Option.some_or] at hb
          exact .inl (hf.trans hb)
      have hne : b ≠ [] := by
        rcases hor with h | ⟨-, h⟩
        · exact hg.ne b (List.mem_of_find?_eq_some h)
        · obtain ⟨_, _, _, -, -, hne, -⟩ := h
          exact hne
      obtain ⟨r, hr⟩ := hpre
      refine ⟨k', k'.drop b.length, P.ws.adv _ _ _ h1, .drop _ _, ?_, .refl _, rfl, ?_, by rintro y a h; simp at h⟩
      · simp only [Inp.drop, ← hr, List.take_left']
        have := byteLen_pos hne
        omega
      · rintro a p h
        cases h
        exact ⟨hor, by simp [Inp.drop, ← hr]⟩
    · simp at hc

theorem actReference_run {i j : Inp} {s t : St} {x : ActReference} (hg : Good o known i s)
    (h : actReference.run i s = (some (x, j), t)) : ActR o known i x j := by
  rcases PS.run_alt h with h | ⟨u, h1, h⟩
  · obtain ⟨k, hk, h⟩ := PS.run_call h
    exact actR_wide.left hk (checkedActId_run (hg.step.trans hk) h)
  · exact abbreviation_run (hg.fail (PS.grows_call grows_checkedActId) h1) h

theorem callActReference_run {i j : Inp} {s t : St} {x : ActReference} (hg : Good o known i s)
    (h : (PS.call actReference).run i s = (some (x, j), t)) : ActR o known i x j := by
  obtain ⟨k, hk, h⟩ := PS.run_call h
  exact actR_wide.left hk (actReference_run (hg.move hk) h)

theorem titledActReference_run {i j : Inp} {s t : St} {x : ActReference} (hg : Good o known i s)
    (h : titledActReference.run i s = (some (x, j), t)) : ActR o known i x j := by
  obtain ⟨_, k, u, h1, h⟩ := PS.run_bind.1 h
  exact actR_wide.left (PS.adv _ _ _ _ _ _ h1)
    (callActReference_run (hg.run (PS.grows_call grows_actTitle) h1) h)

/-! ### Lists of references -/

/-- The expressions of a list: `compound` is an act and references, the others have no positions. -/
def CompoundR (o : Inp) (known : List Str) (i : Inp) (x : CompoundReference) (j : Inp) : Prop :=
  ∃ k, OptR (ActR o known) i x.actReference k ∧ Seq RefR k x.references j

theorem compound_wideLeft : WideLeft (CompoundR o known) := by
  rintro i k x j h ⟨m, h1, h2⟩
  exact ⟨m, (optR_wide actR_wide).left h h1, h2⟩

theorem separatedReference_run : ∀ i r j, (do call listSeparator; call reference : P Reference).run i = some (r, j) →
    RefR i r j := by
  intro i r j h
  obtain ⟨_, k, h1, h⟩ := P.run_bind.1 h
  exact refR_left _ _ _ _ (P.adv _ _ _ _ h1) (call_run refR_left reference_run _ _ _ h)

theorem compoundReference_run {i j : Inp} {s t : St} {x : CompoundReference} (hg : Good o known i s)
    (h : compoundReference.run i s = (some (x, j), t)) : CompoundR o known i x j := by
  have hgr : PS.Grows compoundWithReferences :=
    PS.grows_bind (PS.grows_opt (PS.grows_call grows_actReference)) fun _ =>
      PS.grows_bind (PS.grows_lift _) fun _ => PS.grows_bind (PS.grows_lift _) fun _ => PS.grows_pure _
  rcases PS.run_alt h with h | ⟨u, h1, h⟩
  · obtain ⟨a, k, u, h1, h⟩ := PS.run_bind.1 h
    obtain ⟨r, m, h2, h⟩ := PS.run_bind_lift h
    obtain ⟨l, n, h3, h⟩ := PS.run_bind_lift h
    obtain ⟨rfl, rfl, rfl⟩ := PS.run_pure.1 h
    refine ⟨k, ?_, .cons (call_run refR_left reference_run _ _ _ h2) (many_seq separatedReference_run h3)⟩
    rcases PS.run_opt h1 with ⟨b, rfl, h'⟩ | ⟨rfl, rfl, h'⟩
    · exact callActReference_run hg h'
    · exact .refl k
  · obtain ⟨a, k, v, h2, h⟩ := PS.run_bind.1 h
    obtain ⟨rfl, rfl, rfl⟩ := PS.run_pure.1 h
    exact ⟨j, callActReference_run (hg.fail hgr h1) h2, .nil (.refl j)⟩

/-- An expression. -/
def ExprR (o : Inp) (known : List Str) (i : Inp) (x : SimpleExpression) (j : Inp) : Prop :=
  match x with
  | .compound r => CompoundR o known i r j
  | _ => i.Step j

theorem exprR_left : WideLeft (ExprR o known) := by
  intro i k x j h h1
  cases x with
  | compound r => exact compound_wideLeft _ _ _ _ h h1
  | quote s => exact h.trans h1
  | attachment => exact h.trans h1
  | token => exact h.trans h1

theorem simpleExpression_run {i j : Inp} {s t : St} {x : SimpleExpression} (hg : Good o known i s)
    (h : simpleExpression.run i s = (some (x, j), t)) : ExprR o known i x j := by
  have hs := PS.adv _ _ _ _ _ _ h
  rcases PS.run_alt h with h | ⟨u, h1, h⟩
  · obtain ⟨a, k, u, h1, h⟩ := PS.run_bind.1 h
    obtain ⟨rfl, -, -⟩ := PS.run_pure.1 h
    exact hs
  have hg := hg.fail (PS.grows_bind (PS.grows_lift _) fun _ => PS.grows_pure _) h1
  rcases PS.run_alt h with h | ⟨u, -, h⟩
  · obtain ⟨a, k, u, h1, h⟩ := PS.run_bind.1 h
    obtain ⟨rfl, rfl, -⟩ := PS.run_pure.1 h
    obtain ⟨k, hk, h1⟩ := PS.run_call h1
    exact compound_wideLeft _ _ _ _ hk (compoundReference_run (hg.move hk) h1)
  rcases PS.run_alt h with h | ⟨u, -, h⟩ <;> obtain ⟨a, k, u, -, h⟩ := PS.run_bind.1 h <;>
    obtain ⟨rfl, -, -⟩ := PS.run_pure.1 h <;> exact hs

theorem PS.manyRun_seq {p : PS α} {R : Inp → α → Inp → Prop} (hgr : PS.Grows p)
    (hp : ∀ i s a j t, Good o known i s → p.run i s = (some (a, j), t) → R i a j) (n : Nat) (i : Inp) (s : St)
    (hg : Good o known i s) : Seq R i (PS.manyRun p n i s).1.1 (PS.manyRun p n i s).1.2 := by
  induction n generalizing i s with
  | zero => exact .nil (.refl i)
  | succ n ih =>
    rw [PS.manyRun]
    rcases hr : p.run i s with ⟨_ | ⟨a, j⟩, t⟩
    · exact .nil (.refl i)
    · simp only
      split
      · exact .cons (hp i s a j t hg hr) (ih j t (hg.run hgr hr))
      · exact .nil (.refl i)

theorem PS.many1_seq {p : PS α} {R : Inp → α → Inp → Prop} (hgr : PS.Grows p)
    (hp : ∀ i s a j t, Good o known i s → p.run i s = (some (a, j), t) → R i a j) {i j : Inp} {s t : St} {l : List α}
    (hg : Good o known i s) (h : (PS.many1 p).run i s = (some (l, j), t)) : Seq R i l j := by
  obtain ⟨a, k, u, h1, h⟩ := PS.run_bind.1 h
  obtain ⟨m, n, v, h2, h⟩ := PS.run_bind.1 h
  obtain ⟨rfl, rfl, rfl⟩ := PS.run_pure.1 h
  refine .cons (hp _ _ _ _ _ hg h1) ?_
  have := PS.manyRun_seq hgr hp (k.rest.length + 1) k u (hg.run hgr h1)
  change (some (PS.manyRun p (k.rest.length + 1) k u).1, (PS.manyRun p (k.rest.length + 1) k u).2) = _ at h2
  simp only [Prod.mk.injEq, Option.some.injEq] at h2
  rw [h2.1] at this
  exact this

theorem simpleExpressions_run {i j : Inp} {s t : St} {l : List SimpleExpression} (hg : Good o known i s)
    (h : simpleExpressions.run i s = (some (l, j), t)) : Seq (ExprR o known) i l j := by
  refine PS.many1_seq (PS.grows_call grows_simpleExpression) ?_ hg h
  intro i s a j t hg h
  obtain ⟨k, hk, h⟩ := PS.run_call h
  exact exprR_left _ _ _ _ hk (simpleExpression_run (hg.move hk) h)

/-! ### Enforcement dates and text amendments -/

/-- A reference in an enforcement date. -/
def EnforcementR (i : Inp) (x : EnforcementReference) (j : Inp) : Prop :=
  match x with
  | .reference r => RefR i r j
  | _ => i.Step j

theorem enforcementR_left : WideLeft EnforcementR := by
  intro i k x j h h1
  cases x with
  | reference r => exact refR_left _ _ _ _ h h1
  | structural r => exact h.trans h1
  | subtitles l => exact h.trans h1
  | attachment => exact h.trans h1

theorem enforcementReference_run : ∀ i x j, enforcementReference.run i = some (x, j) → EnforcementR i x j := by
  intro i x j h
  have hs := P.adv _ _ _ _ h
  rcases P.run_alt h with h | h
  · obtain ⟨a, k, h1, h⟩ := P.run_bind.1 h
    obtain ⟨rfl, rfl⟩ := P.run_pure.1 h
    exact call_run refR_left reference_run _ _ _ h1
  rcases P.run_alt h with h | h
  · obtain ⟨a, k, h1, h⟩ := P.run_bind.1 h
    obtain ⟨rfl, -⟩ := P.run_pure.1 h
    exact hs
  rcases P.run_alt h with h | h <;> obtain ⟨a, k, h1, h⟩ := P.run_bind.1 h <;> obtain ⟨rfl, -⟩ := P.run_pure.1 h <;>
    exact hs

theorem enforcementDate_run {i j : Inp} {x : GEnforcementDate} (h : enforcementDate.run i = some (x, j)) :
    ∃ k, Seq EnforcementR i x.references k ∧ k.Step j := by
  obtain ⟨_, a, h1, h⟩ := P.run_bind.1 h
  obtain ⟨_, b, h2, h⟩ := P.run_bind.1 h
  obtain ⟨l, c, h3, h⟩ := P.run_bind.1 h
  have hs := P.adv _ _ _ _ h
  obtain ⟨_, d, -, h⟩ := P.run_bind.1 h
  obtain ⟨_, e, -, h⟩ := P.run_bind.1 h
  obtain ⟨_, f, -, h⟩ := P.run_bind.1 h
  obtain ⟨_, g, -, h⟩ := P.run_bind.1 h
  obtain ⟨_, m, -, h⟩ := P.run_bind.1 h
  obtain ⟨rfl, rfl⟩ := P.run_pure.1 h
  refine ⟨c, Seq.left enforcementR_left ((P.adv _ _ _ _ h1).trans (P.adv _ _ _ _ h2)) ?_, hs⟩
  rcases P.run_opt h3 with ⟨b, rfl, h'⟩ | ⟨rfl, rfl⟩
  · exact listOf_seq enforcementR_left enforcementReference_run h'
  · exact .nil (.refl _)

/-- An article before or after which something stands. -/
def RelativeR (i : Inp) (x : ArticleRelative) (j : Inp) : Prop :=
  match x with
  | .before a => At SingleArticle.position i a j
  | .after a => At SingleArticle.position i a j

theorem relative_wide : Wide RelativeR where
  left := by
    intro i k x j h h1
    cases x <;> exact (at_wide SingleArticle.position).left h h1
  right := by
    intro i x k j h1 h
    cases x <;> exact (at_wide SingleArticle.position).right h1 h

theorem articleRelative_run : ∀ i x j, articleRelative.run i = some (x, j) → RelativeR i x j := by
  have key : ∀ (q : P Unit) (i : Inp) (a : SingleArticle) (j : Inp),
      (do optAz; let a ← call singleArticle; q; pure a : P SingleArticle).run i = some (a, j) →
      At SingleArticle.position i a j := by
    intro q i a j h
    obtain ⟨_, b, h1, h⟩ := P.run_bind.1 h
    obtain ⟨_, c, h2, h⟩ := P.run_bind.1 h
    obtain ⟨_, d, h3, h⟩ := P.run_bind.1 h
    obtain ⟨rfl, rfl⟩ := P.run_pure.1 h
    exact (at_wide _).left (P.adv _ _ _ _ h1) ((at_wide _).right
      (call_run (at_wide _).wideLeft singleArticle_at _ _ _ h2) (P.adv _ _ _ _ h3))
  intro i x j h
  rcases P.run_alt h with h | h <;> obtain ⟨a, k, h1, h⟩ := P.run_bind.1 h <;> obtain ⟨rfl, rfl⟩ := P.run_pure.1 h <;>
    exact call_run (at_wide SingleArticle.position).wideLeft (key _) _ _ _ h1

/-- A reference in a text amendment or repeal. -/
def TextR (i : Inp) (x : TextReference) (j : Inp) : Prop :=
  match x with
  | .articleTitle a => At SingleArticle.position i a j
  | .structural _ (.relative a) => RelativeR i a j
  | .reference r _ => ∃ k, RefR i r k ∧ k.Step j
  | _ => i.Step j

theorem text_wide : Wide TextR where
  left := by
    intro i k x j h h1
    cases x with
    | articleTitle a => exact (at_wide SingleArticle.position).left h h1
    | structural p c =>
      cases c with
      | relative a => exact relative_wide.left h h1
      | structural r => exact h.trans h1
    | subtitles l => exact h.trans h1
    | reference r t =>
      obtain ⟨m, h2, h3⟩ := h1
      exact ⟨m, refR_left _ _ _ _ h h2, h3⟩
    | attachment => exact h.trans h1
  right := by
    intro i x k j h1 h
    cases x with
    | articleTitle a => exact (at_wide SingleArticle.position).right h1 h
    | structural p c =>
      cases c with
      | relative a => exact relative_wide.right h1 h
      | structural r => exact Inp.Step.trans h1 h
    | subtitles l => exact Inp.Step.trans h1 h
    | reference r t =>
      obtain ⟨m, h2, h3⟩ := h1
      exact ⟨m, h2, h3.trans h⟩
    | attachment => exact Inp.Step.trans h1 h

theorem articleTitleReference_run : ∀ i x j, articleTitleReference.run i = some (x, j) → TextR i x j := by
  intro i x j h
  obtain ⟨a, k, h1, h⟩ := P.run_bind.1 h
  obtain ⟨_, m, h2, h⟩ := P.run_bind.1 h
  obtain ⟨rfl, rfl⟩ := P.run_pure.1 h
  exact (at_wide _).right (call_run (at_wide SingleArticle.position).wideLeft singleArticle_at _ _ _ h1)
    (P.adv _ _ _ _ h2)

theorem textStructuralReference_run : ∀ i x j, textStructuralReference.run i = some (x, j) → TextR i x j := by
  intro i x j h
  have hs := P.adv _ _ _ _ h
  rcases P.run_alt h with h | h
  · obtain ⟨p, k, h1, h⟩ := P.run_bind.1 h
    obtain ⟨c, m, h2, h⟩ := P.run_bind.1 h
    obtain ⟨_, n, h3, h⟩ := P.run_bind.1 h
    obtain ⟨rfl, rfl⟩ := P.run_pure.1 h
    exact relative_wide.left (P.adv _ _ _ _ h1) (relative_wide.right
      (call_run relative_wide.wideLeft articleRelative_run _ _ _ h2) (P.adv _ _ _ _ h3))
  rcases P.run_alt h with h | h
  · obtain ⟨p, k, h1, h⟩ := P.run_bind.1 h
    obtain ⟨c, m, h2, h⟩ := P.run_bind.1 h
    obtain ⟨rfl, -⟩ := P.run_pure.1 h
    exact hs
  rcases P.run_alt h with h | h
  · obtain ⟨c, m, h2, h⟩ := P.run_bind.1 h
    obtain ⟨_, n, h3, h⟩ := P.run_bind.1 h
    obtain ⟨rfl, rfl⟩ := P.run_pure.1 h
    exact relative_wide.right (call_run relative_wide.wideLeft articleRelative_run _ _ _ h2) (P.adv _ _ _ _ h3)
  · obtain ⟨p, k, h1, h⟩ := P.run_bind.1 h
    obtain ⟨rfl, -⟩ := P.run_pure.1 h
    exact hs

theorem referenceWithIntroWrapup_run : ∀ i x j, referenceWithIntroWrapup.run i = some (x, j) → TextR i x j := by
  intro i x j h
  obtain ⟨r, k, h1, h⟩ := P.run_bind.1 h
  obtain ⟨t, m, h2, h⟩ := P.run_bind.1 h
  obtain ⟨rfl, rfl⟩ := P.run_pure.1 h
  exact ⟨k, call_run refR_left reference_run _ _ _ h1, P.adv _ _ _ _ h2⟩

theorem textReference_run : ∀ i x j, textReference.run i = some (x, j) → TextR i x j := by
  intro i x j h
  have hs := P.adv _ _ _ _ h
  rcases P.run_alt h with h | h
  · exact call_run text_wide.wideLeft articleTitleReference_run _ _ _ h
  rcases P.run_alt h with h | h
  · exact call_run text_wide.wideLeft textStructuralReference_run _ _ _ h
  rcases P.run_alt h with h | h
  · obtain ⟨p, k, h1, h⟩ := P.run_bind.1 h
    obtain ⟨rfl, -⟩ := P.run_pure.1 h
    exact hs
  rcases P.run_alt h with h | h
  · exact call_run text_wide.wideLeft referenceWithIntroWrapup_run _ _ _ h
  · obtain ⟨p, k, h1, h⟩ := P.run_bind.1 h
    obtain ⟨rfl, -⟩ := P.run_pure.1 h
    exact hs

theorem textReferenceItem_run : ∀ i x j, textReferenceItem.run i = some (x, j) → TextR i x j := by
  intro i x j h
  obtain ⟨r, k, h1, h⟩ := P.run_bind.1 h
  obtain ⟨_, m, h2, h⟩ := P.run_bind.1 h
  obtain ⟨rfl, rfl⟩ := P.run_pure.1 h
  exact text_wide.right (call_run text_wide.wideLeft textReference_run _ _ _ h1) (P.adv _ _ _ _ h2)

/-- An act and what is referred to in it. -/
def ActAndR (o : Inp) (known : List Str) (R : Inp → X → Inp → Prop) (i : Inp) (a : ActReference) (x : X)
    (j : Inp) : Prop := ∃ k, ActR o known i a k ∧ R k x j

theorem textAmendment_run {i j : Inp} {s t : St} {x : GTextAmendment} (hg : Good o known i s)
    (h : textAmendment.run i s = (some (x, j), t)) : ActAndR o known (Seq TextR) i x.actReference x.references j := by
  obtain ⟨_, a, h1, h⟩ := PS.run_bind_lift h
  obtain ⟨y, b, s2, h2, h⟩ := PS.run_bind.1 h
  obtain ⟨l, c, s3, h3, h⟩ := PS.run_bind.1 h
  have hs := PS.adv _ _ _ _ _ _ h
  obtain ⟨_, d, _, -, h⟩ := PS.run_bind.1 h
  obtain ⟨_, e, _, -, h⟩ := PS.run_bind.1 h
  obtain ⟨_, f, _, -, h⟩ := PS.run_bind.1 h
  obtain ⟨_, g, _, -, h⟩ := PS.run_bind.1 h
  obtain ⟨_, m, _, -, h⟩ := PS.run_bind.1 h
  obtain ⟨rfl, rfl, rfl⟩ := PS.run_pure.1 h
  obtain ⟨h3, -⟩ := PS.run_lift.1 h3
  refine ⟨b, actR_wide.left (P.adv _ _ _ _ h1) (titledActReference_run (hg.move (P.adv _ _ _ _ h1)) h2), ?_⟩
  obtain ⟨z, n, h4, h3⟩ := P.run_bind.1 h3
  obtain ⟨l', n', h5, h3⟩ := P.run_bind.1 h3
  obtain ⟨rfl, rfl⟩ := P.run_pure.1 h3
  exact (seq_wide text_wide).right (.cons (textReferenceItem_run _ _ _ h4) (many_seq textReferenceItem_run h5)) hs

theorem repeal_run {i j : Inp} {s t : St} {x : GRepeal} (hg : Good o known i s)
    (h : repeal.run i s = (some (x, j), t)) : ActAndR o known (Seq TextR) i x.actReference x.references j := by
  obtain ⟨_, a, h1, h⟩ := PS.run_bind_lift h
  obtain ⟨_, a', h1', h⟩ := PS.run_bind_lift h
  obtain ⟨y, b, s2, h2, h⟩ := PS.run_bind.1 h
  obtain ⟨l, c, s3, h3, h⟩ := PS.run_bind.1 h
  have hs := PS.adv _ _ _ _ _ _ h
  obtain ⟨_, d, _, -, h⟩ := PS.run_bind.1 h
  obtain ⟨_, e, _, -, h⟩ := PS.run_bind.1 h
  obtain ⟨rfl, rfl, rfl⟩ := PS.run_pure.1 h
  obtain ⟨h3, -⟩ := PS.run_lift.1 h3
  have hst := (P.adv _ _ _ _ h1).trans (P.adv _ _ _ _ h1')
  exact ⟨b, actR_wide.left hst (titledActReference_run (hg.move hst) h2),
    (seq_wide text_wide).right (many_seq textReferenceItem_run h3) hs⟩

/-! ### Block amendments -/

/-- What is amended and what is inserted. -/
def AmendedR (i : Inp) (x : Option Reference × Option InsertionReference) (j : Inp) : Prop :=
  ∃ k m, OptR RefR i x.1 k ∧ OptR InsR k x.2 m ∧ m.Step j

theorem optRefR_left : WideLeft (OptR RefR) := by
  intro i k x j h h1
  cases x with
  | none => exact h.trans h1
  | some x => exact refR_left _ _ _ _ h h1

theorem amended_left : WideLeft AmendedR := by
  rintro i k x j h ⟨m, n, h1, h2⟩
  exact ⟨m, n, optRefR_left _ _ _ _ h h1, h2⟩

theorem amended_run {i j : Inp} {s t : St} {x : Option Reference × Option InsertionReference}
    (h : (amendedOnly <|> insertedOnly <|> amendedAndInserted).run i s = (some (x, j), t)) : AmendedR i x j := by
  rcases PS.run_alt h with h | ⟨u, -, h⟩
  · obtain ⟨r, a, h1, h⟩ := PS.run_bind_lift h
    have hs := PS.adv _ _ _ _ _ _ h
    obtain ⟨_, b, s2, -, h⟩ := PS.run_bind.1 h
    obtain ⟨_, c, s3, -, h⟩ := PS.run_bind.1 h
    obtain ⟨rfl, rfl, rfl⟩ := PS.run_pure.1 h
    exact ⟨a, a, call_run refR_left reference_run _ _ _ h1, Inp.Step.refl a, hs⟩
  rcases PS.run_alt h with h | ⟨u, -, h⟩
  · obtain ⟨r, a, h1, h⟩ := PS.run_bind_lift h
    have hs := PS.adv _ _ _ _ _ _ h
    obtain ⟨_, b, s2, -, h⟩ := PS.run_bind.1 h
    obtain ⟨_, c, s3, -, h⟩ := PS.run_bind.1 h
    obtain ⟨rfl, rfl, rfl⟩ := PS.run_pure.1 h
    exact ⟨i, a, Inp.Step.refl i, call_run insR_left insertionReference_run _ _ _ h1, hs⟩
  · obtain ⟨r, a, h1, h⟩ := PS.run_bind_lift h
    obtain ⟨_, b, s2, g1, h⟩ := PS.run_bind.1 h
    obtain ⟨_, c, s3, g2, h⟩ := PS.run_bind.1 h
    obtain ⟨_, d, s4, g3, h⟩ := PS.run_bind.1 h
    obtain ⟨_, e, s5, g4, h⟩ := PS.run_bind.1 h
    obtain ⟨_, f, s6, g5, h⟩ := PS.run_bind.1 h
    obtain ⟨y, g, h2, h⟩ := PS.run_bind_lift h
    have hs := PS.adv _ _ _ _ _ _ h
    obtain ⟨_, k, s8, -, h⟩ := PS.run_bind.1 h
    obtain ⟨_, l, s9, -, h⟩ := PS.run_bind.1 h
    obtain ⟨rfl, rfl, rfl⟩ := PS.run_pure.1 h
    have hst := (PS.adv _ _ _ _ _ _ g1).trans ((PS.adv _ _ _ _ _ _ g2).trans ((PS.adv _ _ _ _ _ _ g3).trans
      ((PS.adv _ _ _ _ _ _ g4).trans (PS.adv _ _ _ _ _ _ g5))))
    exact ⟨a, g, call_run refR_left reference_run _ _ _ h1,
      insR_left _ _ _ _ hst (call_run insR_left insertionReference_run _ _ _ h2), hs⟩

theorem blockAmendment_run {i j : Inp} {s t : St} {x : BlockAmendment} (hg : Good o known i s)
    (h : blockAmendment.run i s = (some (x, j), t)) :
    ActAndR o known AmendedR i x.actReference (x.amended, x.inserted) j := by
  obtain ⟨_, a, h1, h⟩ := PS.run_bind_lift h
  obtain ⟨y, b, s2, h2, h⟩ := PS.run_bind.1 h
  obtain ⟨_, c, s3, h3, h⟩ := PS.run_bind.1 h
  obtain ⟨r, d, s4, h4, h⟩ := PS.run_bind.1 h
  obtain ⟨rfl, rfl, rfl⟩ := PS.run_pure.1 h
  exact ⟨b, actR_wide.left (P.adv _ _ _ _ h1) (titledActReference_run (hg.move (P.adv _ _ _ _ h1)) h2),
    amended_left _ _ _ _ (PS.adv _ _ _ _ _ _ h3) (amended_run h4)⟩

theorem blockAmendmentStructural_run {i j : Inp} {s t : St} {x : BlockAmendmentStructural} (hg : Good o known i s)
    (h : blockAmendmentStructural.run i s = (some (x, j), t)) : ActR o known i x.actReference j := by
  obtain ⟨_, a, h1, h⟩ := PS.run_bind_lift h
  obtain ⟨y, b, s2, h2, h⟩ := PS.run_bind.1 h
  have hs := PS.adv _ _ _ _ _ _ h
  obtain ⟨_, c, s3, h3, h⟩ := PS.run_bind.1 h
  obtain ⟨r, d, s4, h4, h⟩ := PS.run_bind.1 h
  obtain ⟨rfl, rfl, rfl⟩ := PS.run_pure.1 h
  exact actR_wide.left (P.adv _ _ _ _ h1) (actR_wide.right
    (titledActReference_run (hg.move (P.adv _ _ _ _ h1)) h2) hs)

/-- An article with a subtitle. -/
def SubtitleR (i : Inp) (x : ReferenceWithSubtitle) (j : Inp) : Prop := OptR (At SingleArticle.position) i x.article j

theorem subtitle_wide : Wide SubtitleR where
  left h h1 := (optR_wide (at_wide _)).left h h1
  right h1 h := (optR_wide (at_wide _)).right h1 h

theorem referenceWithSubtitle_run : ∀ i x j, referenceWithSubtitle.run i = some (x, j) → SubtitleR i x j := by
  intro i x j h
  rcases P.run_alt h with h | h
  · obtain ⟨a, b, h1, h⟩ := P.run_bind.1 h
    have hs := P.adv _ _ _ _ h
    obtain ⟨_, c, -, h⟩ := P.run_bind.1 h
    obtain ⟨_, d, -, h⟩ := P.run_bind.1 h
    obtain ⟨_, e, -, h⟩ := P.run_bind.1 h
    obtain ⟨_, f, -, h⟩ := P.run_bind.1 h
    obtain ⟨_, g, -, h⟩ := P.run_bind.1 h
    obtain ⟨rfl, rfl⟩ := P.run_pure.1 h
    exact (at_wide _).right (call_run (at_wide SingleArticle.position).wideLeft singleArticle_at _ _ _ h1) hs
  · obtain ⟨n, b, h1, h⟩ := P.run_bind.1 h
    obtain ⟨a, c, h2, h⟩ := P.run_bind.1 h
    obtain ⟨rfl, rfl⟩ := P.run_pure.1 h
    refine subtitle_wide.left (P.adv _ _ _ _ h1) (opt_optR ?_ h2)
    intro i a j h
    obtain ⟨_, k, h1, h⟩ := P.run_bind.1 h
    exact (at_wide _).left (P.adv _ _ _ _ h1) (call_run (at_wide SingleArticle.position).wideLeft singleArticle_at _ _ _ h)

theorem subtitleAmendment_run {i j : Inp} {x : ReferenceWithSubtitle × Bool}
    (h : subtitleAmendment.run i = some (x, j)) : SubtitleR i x.1 j := by
  have key : ∀ (q r : P Unit) (v : Bool) (i : Inp) (x : ReferenceWithSubtitle × Bool) (j : Inp),
      (do let y ← call referenceWithSubtitle; q; r; pure (y, v) : P _).run i = some (x, j) → SubtitleR i x.1 j := by
    intro q r v i x j h
    obtain ⟨a, b, h1, h⟩ := P.run_bind.1 h
    have hs := P.adv _ _ _ _ h
    obtain ⟨_, c, -, h⟩ := P.run_bind.1 h
    obtain ⟨_, d, -, h⟩ := P.run_bind.1 h
    obtain ⟨rfl, rfl⟩ := P.run_pure.1 h
    exact subtitle_wide.right (call_run subtitle_wide.wideLeft referenceWithSubtitle_run _ _ _ h1) hs
  rcases P.run_alt h with h | h
  · exact key _ _ _ _ _ _ h
  rcases P.run_alt h with h | h
  · exact key _ _ _ _ _ _ h
  · obtain ⟨_, b, h1, h⟩ := P.run_bind.1 h
    exact subtitle_wide.left (P.adv _ _ _ _ h1) (key _ _ _ _ _ _ h)

theorem blockAmendmentWithSubtitle_run {i j : Inp} {s t : St} {x : BlockAmendmentWithSubtitle}
    (hg : Good o known i s) (h : blockAmendmentWithSubtitle.run i s = (some (x, j), t)) :
    ∃ k m, ActR o known i x.actReference k ∧ OptR RelativeR k x.articleRelative m ∧ SubtitleR m x.reference j := by
  obtain ⟨_, a, h1, h⟩ := PS.run_bind_lift h
  obtain ⟨y, b, s2, h2, h⟩ := PS.run_bind.1 h
  obtain ⟨_, c, s3, h3, h⟩ := PS.run_bind.1 h
  obtain ⟨z, d, s4, h4, h⟩ := PS.run_bind.1 h
  obtain ⟨r, e, s5, h5, h⟩ := PS.run_bind.1 h
  obtain ⟨rfl, rfl, rfl⟩ := PS.run_pure.1 h
  obtain ⟨h4, -⟩ := PS.run_lift.1 h4
  obtain ⟨h5, -⟩ := PS.run_lift.1 h5
  exact ⟨b, d, actR_wide.left (P.adv _ _ _ _ h1) (titledActReference_run (hg.move (P.adv _ _ _ _ h1)) h2),
    (optR_wide relative_wide).left (PS.adv _ _ _ _ _ _ h3)
      (opt_optR (call_run relative_wide.wideLeft articleRelative_run) h4),
    subtitleAmendment_run h5⟩

/-! ### The whole text -/

/-- The positions in the result of the grammar are in order. -/
def RootR (o : Inp) (known : List Str) (i : Inp) (x : Root) (j : Inp) : Prop :=
  match x with
  | .blockAmendment x => ActAndR o known AmendedR i x.actReference (x.amended, x.inserted) j
  | .blockAmendmentWithSubtitle x =>
    ∃ k m, ActR o known i x.actReference k ∧ OptR RelativeR k x.articleRelative m ∧ SubtitleR m x.reference j
  | .blockAmendmentStructural x => ActR o known i x.actReference j
  | .textAmendment x => ActAndR o known (Seq TextR) i x.actReference x.references j
  | .enforcementDate x => ∃ k, Seq EnforcementR i x.references k ∧ k.Step j
  | .repeal x => ActAndR o known (Seq TextR) i x.actReference x.references j
  | .simple l => Seq (ExprR o known) i l j

theorem entire_run {p : PS α} {f : α → Root} {R : Inp → α → Inp → Prop} 
    (hp : ∀ i s a j t, Good o known i s → p.run i s = (some (a, j), t) → R i a j) {i j : Inp} {s t : St} {x : Root}
    (hg : Good o known i s) (h : (entire p f).run i s = (some (x, j), t)) :
    ∃ a k m, i.Step k ∧ x = f a ∧ R k a m ∧ m.Step j := by
  obtain ⟨a, k, u, h1, h⟩ := PS.run_bind.1 h
  have hs := PS.adv _ _ _ _ _ _ h
  obtain ⟨_, m, v, -, h⟩ := PS.run_bind.1 h
  obtain ⟨rfl, rfl, rfl⟩ := PS.run_pure.1 h
  obtain ⟨k', hk, h1⟩ := PS.run_call h1
  exact ⟨a, k', k, hk, rfl, hp _ _ _ _ _ (hg.move hk) h1, hs⟩

theorem root_run {i j : Inp} {s t : St} {x : Root} (hg : Good o known i s)
    (h : root.run i s = (some (x, j), t)) : ∃ k m, i.Step k ∧ RootR o known k x m ∧ m.Step j := by
  rcases PS.run_alt h with h | ⟨u, h1, h⟩
  · obtain ⟨a, k, m, h1, rfl, h2, h3⟩ := entire_run (fun _ _ _ _ _ => blockAmendment_run) hg h
    exact ⟨k, m, h1, h2, h3⟩
  have hg := hg.fail (grows_entire grows_blockAmendment _) h1
  rcases PS.run_alt h with h | ⟨u, h1, h⟩
  · obtain ⟨a, k, m, h1, rfl, h2, h3⟩ :=
      entire_run (fun _ _ _ _ _ => blockAmendmentWithSubtitle_run) hg h
    exact ⟨k, m, h1, h2, h3⟩
  have hg := hg.fail (grows_entire grows_blockAmendmentWithSubtitle _) h1
  rcases PS.run_alt h with h | ⟨u, h1, h⟩
  · obtain ⟨a, k, m, h1, rfl, h2, h3⟩ :=
      entire_run (fun _ _ _ _ _ => blockAmendmentStructural_run) hg h
    exact ⟨k, m, h1, h2, h3⟩
  have hg := hg.fail (grows_entire grows_blockAmendmentStructural _) h1
  rcases PS.run_alt h with h | ⟨u, h1, h⟩
  · obtain ⟨a, k, m, h1, rfl, h2, h3⟩ := entire_run (fun _ _ _ _ _ => textAmendment_run) hg h
    exact ⟨k, m, h1, h2, h3⟩
  have hg := hg.fail (grows_entire grows_textAmendment _) h1
  rcases PS.run_alt h with h | ⟨u, h1, h⟩
  · obtain ⟨a, k, m, h1, rfl, h2, h3⟩ := entire_run
      (fun _ _ _ _ _ _ h => enforcementDate_run (PS.run_lift.1 h).1) hg h
    exact ⟨k, m, h1, h2, h3⟩
  have hg := hg.fail (grows_entire (PS.grows_lift _) _) h1
  rcases PS.run_alt h with h | ⟨u, h1, h⟩
  · obtain ⟨a, k, m, h1, rfl, h2, h3⟩ := entire_run (fun _ _ _ _ _ => repeal_run) hg h
    exact ⟨k, m, h1, h2, h3⟩
  have hg := hg.fail (grows_entire grows_repeal _) h1
  obtain ⟨a, k, m, h1, rfl, h2, h3⟩ := entire_run (fun _ _ _ _ _ => simpleExpressions_run) hg h
  exact ⟨k, m, h1, h2, h3⟩

theorem parse_run {s : Str} {known : List Str} {x : Root} (hk : ∀ a ∈ known, a ≠ []) (h : parse s known = some x) :
    ∃ k m, Inp.Step ⟨0, s⟩ k ∧ RootR ⟨0, s⟩ known k x m := by
  unfold parse at h
  rcases hr : root.run ⟨0, s⟩ ⟨known, []⟩ with ⟨_ | ⟨r, j⟩, t⟩ <;> rw [hr] at h
  · simp at h
  · simp only [Option.some.injEq] at h
    subst h
    obtain ⟨k, m, h1, h2, -⟩ := root_run (o := ⟨0, s⟩) (known := known)
      ⟨.refl _, hk, [], by simp, by simp⟩ hr
    exact ⟨k, m, h1, h2⟩

end HunLaw.Grammar
