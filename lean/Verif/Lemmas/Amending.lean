import Verif.Lemmas.StructuralTail

/-! Sentences which amend an act: the beginning, which the three rules of block amendments share, and the rest. -/

set_option autoImplicit false

namespace HunLaw.Grammar

open HunLaw P Spec

variable {α β : Type} {G : St → Prop} {known : List Str}

theorem fails_blockBody {n : Nat} {u : Str} (h2 : ∀ n, Fails (call reference) n u) (h3 : ∀ n, Fails (call insertionReference) n u) :
    FailsG G (amendedOnly <|> insertedOnly <|> amendedAndInserted) n u :=
  FailsG.alt (FailsG.bind (FailsG.lift (h2 _))) (FailsG.alt (FailsG.bind (FailsG.lift (h3 _))) (FailsG.bind (FailsG.lift (h2 _))))

theorem reads_entire {p : PS α} {f : α → Root} {text : Str} {a : α} (hws : NoWs text) (h : ReadsG G p 0 text [] a) :
    ReadsG G (entire p f) 0 text [] (f a) := by
  have := ReadsG.bind (f := fun x => PS.lift (call eoi) >>= fun _ => (pure (f x) : PS Root)) (u := []) (b := f a)
    (ReadsG.call (t := text) (rest := [] ++ []) (by simpa using hws) h)
    (ReadsG.map (g := fun _ => f a) (a := ()) (ReadsG.lift (Reads.call (by intro c hc; cases hc) (by simp [Reads, eoi, byteLen]))))
  rw [List.append_nil] at this
  exact this

theorem fails_entire {p : PS α} {f : α → Root} {text : Str} (hws : NoWs text) (h : FailsG G p 0 text) : FailsG G (entire p f) 0 text :=
  FailsG.bind (FailsG.call_noWs hws h)

theorem article_noWs {a : Str} (ha : a ∈ articles) (r : Str) : NoWs (a ++ r) := by
  simp only [articles, List.mem_cons, List.not_mem_nil, or_false] at ha
  rcases ha with rfl | rfl | rfl | rfl <;> exact noWs_cons (by decide)

theorem parse_of_root {text : Str} {x : Root} (hG : G ⟨known, []⟩) (h : ReadsG G root 0 text [] x) : parse text known = some x := by
  obtain ⟨t, -, ht⟩ := h ⟨known, []⟩ hG
  unfold parse
  rw [List.append_nil] at ht
  rw [ht]

/-- The beginning of the sentence is read. -/
theorem reads_begin {A I T : Str} {p : ActReference → PS β} {a : ActReference} {b : β} (hA : A ∈ articles)
    (hi : ReadsG G titledActReference (byteLen A) I T a) (h : ∀ n, ReadsG G (p a) n T [] b) :
    ReadsG G (PS.lift (call azAny) >>= fun _ => titledActReference >>= p) 0 (A ++ (I ++ T)) [] b := by
  refine ReadsG.bind (ReadsG.lift (reads_azAny hA)) (ReadsG.bind ?_ (h _))
  rw [List.append_nil, Nat.zero_add]
  exact hi

theorem fails_begin {A I T : Str} {p : ActReference → PS β} {a : ActReference} (hA : A ∈ articles)
    (hi : ReadsG G titledActReference (byteLen A) I T a) (h : ∀ n, FailsG G (p a) n T) :
    FailsG G (PS.lift (call azAny) >>= fun _ => titledActReference >>= p) 0 (A ++ (I ++ T)) := by
  refine FailsG.bind_of (ReadsG.lift (reads_azAny hA)) (FailsG.bind_of ?_ (h _))
  rw [Nat.zero_add]
  exact hi

section

variable {A I t u v w : Str} {a : ActReference} {m : Nat} {q : Option StructuralReference} {x : Option ArticleRelative}

/-- Not a block amendment. -/
theorem fails_block (hA : A ∈ articles) (hi : ReadsG G titledActReference (byteLen A) I (t ++ u) a)
    (h1 : ∀ n, Reads (opt (call structuralReference)) n t u q)
    (h2 : ∀ n, FailsG G (amendedOnly <|> insertedOnly <|> amendedAndInserted) n u) :
    FailsG G (entire blockAmendment .blockAmendment) 0 (A ++ (I ++ (t ++ u))) :=
  fails_entire (article_noWs hA _) (fails_begin hA hi fun n => FailsG.bind_of (ReadsG.lift (h1 n)) (FailsG.bind (h2 _)))

theorem reads_subtitle (hA : A ∈ articles) (hi : ReadsG G titledActReference (byteLen A) I (t ++ (v ++ w)) a)
    (h1 : ∀ n, Reads (opt (call structuralReference)) n t (v ++ w) q) (h3 : ∀ n, Reads (opt (call articleRelative)) n v w x)
    {r : ReferenceWithSubtitle × Bool} (h4 : ∀ n, Reads subtitleAmendment n w [] r) :
    ReadsG G (entire blockAmendmentWithSubtitle .blockAmendmentWithSubtitle) 0 (A ++ (I ++ (t ++ (v ++ w)))) []
      (.blockAmendmentWithSubtitle ⟨a, q, x, r.1, r.2⟩) := by
  refine reads_entire (article_noWs hA _) (reads_begin hA hi fun n => ?_)
  refine ReadsG.bind (ReadsG.lift (by rw [List.append_nil]; exact h1 _)) (ReadsG.bind (ReadsG.lift (by rw [List.append_nil]; exact h3 _)) ?_)
  exact ReadsG.map (g := fun r => (⟨a, q, x, r.1, r.2⟩ : BlockAmendmentWithSubtitle)) (ReadsG.lift (h4 _))

theorem fails_subtitle (hA : A ∈ articles) (hi : ReadsG G titledActReference (byteLen A) I (t ++ (v ++ w)) a)
    (h1 : ∀ n, Reads (opt (call structuralReference)) n t (v ++ w) q) (h3 : ∀ n, Reads (opt (call articleRelative)) n v w x)
    (h4 : ∀ n, Fails subtitleAmendment n w) :
    FailsG G (entire blockAmendmentWithSubtitle .blockAmendmentWithSubtitle) 0 (A ++ (I ++ (t ++ (v ++ w)))) :=
  fails_entire (article_noWs hA _) (fails_begin hA hi fun n => FailsG.bind_of (ReadsG.lift (h1 n))
    (FailsG.bind_of (ReadsG.lift (h3 _)) (FailsG.bind (FailsG.lift (h4 _)))))

theorem reads_structuralBlock (hA : A ∈ articles) (hi : ReadsG G titledActReference (byteLen A) I w a)
    (h3 : ∀ n, Fails (call articleRelative) n w) {r : Option StructuralReference × StructuralReference × Option Str × Bool}
    (h4 : ∀ n, Reads structuralAmendment n w [] r) :
    ReadsG G (entire blockAmendmentStructural .blockAmendmentStructural) 0 (A ++ (I ++ w)) []
      (.blockAmendmentStructural ⟨a, r.1, r.2.1, r.2.2.1, r.2.2.2⟩) := by
  refine reads_entire (article_noWs hA _) (reads_begin hA hi fun n => ?_)
  have := ReadsG.bind (G := G) (p := PS.lift (opt (call articleRelative))) (t := []) (u := w) (rest := []) (a := none) (n := n)
    (f := fun _ => PS.lift structuralAmendment >>= fun r => (pure ⟨a, r.1, r.2.1, r.2.2.1, r.2.2.2⟩ : PS BlockAmendmentStructural))
    (ReadsG.lift (by rw [List.append_nil]; exact Reads.opt_none (h3 _)))
    (ReadsG.map (g := fun r => (⟨a, r.1, r.2.1, r.2.2.1, r.2.2.2⟩ : BlockAmendmentStructural)) (ReadsG.lift (h4 _)))
  exact this

end

/-- How a sentence which amends the structure is parsed. -/
theorem parse_tail {A I T : Str} {a : ActReference} {p : Place} {par : Option StructuralReference} {book : Option Str} {ins o : Bool}
    (hG : G ⟨known, []⟩) (hA : A ∈ articles) (hi : ReadsG G titledActReference (byteLen A) I T a) (hT : TailReads T p par book ins o) :
    (o = p.title.isSome ∧ parse (A ++ (I ++ T)) known = some (.blockAmendmentStructural ⟨a, par, placeAt p, book, ins⟩)) ∨
    (book = none ∧ o = false ∧ ∃ r, subtitleAt p = some r ∧ parse (A ++ (I ++ T)) known = some (.blockAmendmentWithSubtitle ⟨a, par, none, r, ins⟩)) := by
  obtain ⟨t, u, q, rfl, h1, h2, h3, h4, h5, h6, h7⟩ := hT
  have hb := fails_block hA hi h1 fun n => fails_blockBody h2 h3
  rcases h7 with ⟨ho, h7⟩ | ⟨hbk, hq, ht, r, hr, h7⟩
  · refine .inl ⟨ho, parse_of_root hG (ReadsG.right (by rw [List.append_nil]; exact hb) (ReadsG.right ?_ (ReadsG.left ?_)))⟩
    · rw [List.append_nil]
      exact fails_subtitle (v := []) hA hi h1 (fun n => Reads.opt_none (h4 n)) h7
    · exact reads_structuralBlock hA hi h5 h6
  · refine .inr ⟨hbk, ht, r, hr, parse_of_root hG (ReadsG.right (by rw [List.append_nil]; exact hb) (ReadsG.left ?_))⟩
    rw [← hq]
    exact reads_subtitle (v := []) hA hi h1 (fun n => Reads.opt_none (h4 n)) h7

end HunLaw.Grammar
