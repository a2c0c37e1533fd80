import Verif.Lemmas.TextSentence

/-! Repeals: the rules before theirs do not fit, and the whole sentence is read. -/

set_option autoImplicit false

namespace HunLaw.Grammar

open HunLaw P Spec

variable {α β : Type} {G : St → Prop} {known : List Str}

/-! ### repealed words -/

/-- Between the quote and the next one. -/
theorem reads_repealedEnd {x : RepealedText} (hx : x.Usual) {rest : Str} (h : Next rest) (hs : ¬ str!"szöveg" <+: skipWs rest) (n : Nat) :
    ∃ y, Reads (opt (call textAmendmentToken)) n ((x.ending.map fun e => str!" szöveg" ++ e).getD []) rest y := by
  cases he : x.ending with
  | some e => exact ⟨_, Reads.opt_some (reads_call_partSuffix (w := str!"szöveg") (by decide) (noWs_cons (by decide)) (hx.ending e he) h)⟩
  | none => exact ⟨_, Reads.opt_none (Fails.call fun _ => Fails.bind (Fails.lit hs))⟩

/-- The article before the words, and the words. -/
theorem reads_repealQuote {v : Str} (hv : v ∈ [[], str!" ", str!" a ", str!" az "]) {t : Str} (ht : QuotedUsual t) {rest u : Str} {f : Str → P β} {b : β} {n : Nat}
    (h : Reads (f t) (n + byteLen (v ++ (str!"„" ++ (t ++ str!"”")))) u rest b) : Reads (optAz >>= fun _ => call quote >>= f) n (v ++ (str!"„" ++ (t ++ str!"”") ++ u)) rest b := by
  have hq : ∀ n, Reads (f t) (n + byteLen (str!"„" ++ (t ++ str!"”"))) u rest b → Reads (call quote >>= f) n (str!"„" ++ (t ++ str!"”") ++ u) rest b := fun n h =>
    Reads.bind (Reads.call (noWs_cons (by decide)) (reads_quote ht)) h
  have hq' : ∀ n, Reads (f t) (n + byteLen (' ' :: (str!"„" ++ (t ++ str!"”")))) u rest b → Reads (call quote >>= f) n (' ' :: (str!"„" ++ (t ++ str!"”")) ++ u) rest b := fun n h =>
    Reads.bind (Reads.call_space (noWs_cons (by decide)) (reads_quote ht)) h
  rw [byteLen_append', ← Nat.add_assoc] at h
  simp only [List.mem_cons, List.not_mem_nil, or_false] at hv
  rcases hv with rfl | rfl | hv
  · exact Reads.bind (t := []) (reads_noAz (.cons (by decide)) (noWs_cons (by decide))) (hq _ h)
  · have e : str!" " ++ (str!"„" ++ (t ++ str!"”") ++ u) = [] ++ (' ' :: (str!"„" ++ (t ++ str!"”")) ++ u) := by simp
    rw [e]
    refine Reads.bind (t := []) (a := ()) ?_ (hq' _ (by rw [Nat.add_assoc, ← byteLen_append'] at h; exact h))
    exact Reads.map (g := fun _ => ()) (Reads.opt_none (Fails.call_space (s := _) (noWs_cons (by decide)) fun _ => fails_az
        (not_prefix_of_head (by decide) (by simp)) (not_prefix_of_head (by decide) (by simp))))
  · obtain ⟨w, hw, rfl⟩ : ∃ w, (w = str!"a " ∨ w = str!"az ") ∧ v = ' ' :: w := by
      rcases hv with rfl | rfl
      exacts [⟨_, .inl rfl, rfl⟩, ⟨_, .inr rfl, rfl⟩]
    refine Reads.bind (a := ()) (Reads.map (g := fun _ => ()) (Reads.opt_some (Reads.call_space ?_ (reads_az hw)))) (hq _ h)
    rcases hw with e | e <;> rw [e] <;> exact noWs_cons (by decide)

theorem repealed_head (x : RepealedText) (r : Str) : ∃ t, x.text ++ r = '„' :: t := ⟨_, rfl⟩

/-- The repealed words are read one after the other. -/
theorem reads_repealTexts (l : List (Str × RepealedText)) (hl : ∀ x ∈ l, x.1 ∈ separators ∧ x.2.Usual) :
    ∀ (x : RepealedText) (_ : x.Usual) (v : Str) (_ : v ∈ [[], str!" ", str!" a ", str!" az "]) (n : Nat),
    ∃ t1 t2, v ++ (x.text ++ listText RepealedText.text l) = t1 ++ t2 ∧ t1 ≠ [] ∧ Reads repealText n t1 (t2 ++ str!".") x.words ∧
      Reads (many repealText) (n + byteLen t1) t2 str!"." (l.map fun x => x.2.words) := by
  have hxe : ∀ x : RepealedText, x.text = str!"„" ++ (x.words ++ str!"”") ++ (x.ending.map fun e => str!" szöveg" ++ e).getD [] := fun x => by simp [RepealedText.text]
  induction l with
  | nil =>
    intro x hx v hv n
    refine ⟨v ++ x.text, [], by simp [listText], by simp [RepealedText.text], ?_, Reads.many_nil ?_⟩
    · rw [hxe]
      refine reads_repealQuote hv hx.words ?_
      obtain ⟨y, hy⟩ := reads_repealedEnd hx (rest := [] ++ str!".") ⟨.cons (by decide), .cons (by decide)⟩ (by decide) (n + byteLen (v ++ (str!"„" ++ (x.words ++ str!"”"))))
      refine Reads.bind_last hy (Reads.map (g := fun _ => x.words) (Reads.opt_none (fails_listSeparator (.cons (by decide)))))
    · refine Fails.bind_of (t := []) (rest := str!".") (reads_noAz (.cons (by decide)) (noWs_cons (by decide))) ?_
      exact Fails.bind (Fails.call_noWs (noWs_cons (by decide)) fun _ => fails_quote (.cons (by decide)))
  | cons y l ih =>
    intro x hx v hv n
    obtain ⟨sep, x2⟩ := y
    have hy : sep ∈ separators ∧ x2.Usual := hl _ (List.mem_cons_self ..)
    obtain ⟨r, hr⟩ := repealed_head x2 (listText RepealedText.text l ++ str!".")
    obtain ⟨s, v', e, hs, hv'⟩ := reads_separator (n := n + byteLen (v ++ x.text)) hy.1 (quote_itemStart r)
    have hv2 : v' ∈ [[], str!" ", str!" a ", str!" az "] := by rcases hv' with rfl | rfl <;> simp
    obtain ⟨t1', t2', e2, hne2, h1, h2⟩ := ih (fun z hz => hl z (List.mem_cons_of_mem _ hz)) x2 hy.2 v' hv2 (n + byteLen ((v ++ x.text) ++ s))
    refine ⟨(v ++ x.text) ++ s, t1' ++ t2', ?_, by simp [RepealedText.text], ?_, Reads.many_cons hne2 h1 h2⟩
    · rw [← e2]
      simp only [listText, List.flatMap_cons]
      subst e
      simp
    · have e3 : s ++ (t1' ++ t2' ++ str!".") = sep ++ '„' :: r := by rw [← e2, ← hr, e]; simp
      have e4 : t1' ++ t2' ++ str!"." = v' ++ '„' :: r := by rw [← e2, ← hr]; simp
      have e5 : n + byteLen (v ++ x.text) = n + byteLen (v ++ (str!"„" ++ (x.words ++ str!"”"))) + byteLen ((x.ending.map fun e => str!" szöveg" ++ e).getD []) := by
        rw [hxe, ← List.append_assoc, byteLen_append', Nat.add_assoc]
      rw [e5] at hs
      rw [hxe, List.append_assoc, List.append_assoc]
      refine reads_repealQuote hv hx.words ?_
      have hj := joined_head (r := sep ++ '„' :: r) ⟨sep, hy.1, _, rfl⟩ (f := fun c => c ≠ 's') (by decide)
      obtain ⟨y, hy'⟩ := reads_repealedEnd hx (rest := s ++ (t1' ++ t2' ++ str!".")) (by
        rw [e3]
        exact (separator_noLevel hy.1 (.cons (by decide))).next) (by
        rw [e3]; exact not_prefix_of_head (by decide) fun e => hj _ e.symm rfl) (n + byteLen (v ++ (str!"„" ++ (x.words ++ str!"”"))))
      refine Reads.bind hy' (Reads.map (g := fun _ => x.words) (Reads.opt_some (a := ()) ?_))
      rw [e4]
      exact hs

/-! ### the sentence -/

theorem verb_facts {v : Str} (hv : v ∈ repealVerbs) (r : Str) :
    NoWs (v ++ r) ∧ Head (fun c => c ≠ 'a' ∧ c ≠ 'A' ∧ c ≠ 'E') (v ++ r) ∧ ∀ n, Reads (toks [str!"Nem lép hatályba", str!"Hatályát veszti", str!"Hatályát veszíti"]) n v r () := by
  have h1 : NoWs (v ++ r) ∧ Head (fun c => c ≠ 'a' ∧ c ≠ 'A' ∧ c ≠ 'E') (v ++ r) := by
    simp only [repealVerbs, List.mem_cons, List.not_mem_nil, or_false] at hv
    rcases hv with rfl | rfl | rfl <;> exact ⟨noWs_cons (by decide), .cons (by decide)⟩
  refine ⟨h1.1, h1.2, fun n => Reads.call h1.1 (reads_one hv ?_)⟩
  exact (by decide : ∀ v ∈ repealVerbs, ∀ u ∈ repealVerbs, u ≠ v → ¬ u <+: v ∧ ¬ v <+: u) v hv

theorem fails_azLit {c : Char} {s : Str} {n : Nat} (h : Head (· ≠ c) s) : Fails (do lit [c]; let _ ← opt (lit str!"z"); lit str!" ") n s :=
  Fails.bind (Fails.lit (not_prefix_of_head (by simp) fun e => h _ e.symm rfl))

theorem fails_azAny {s : Str} (hn : NoWs s) (h : Head (fun c => c ≠ 'a' ∧ c ≠ 'A' ∧ c ≠ 'E') s) {n : Nat} : Fails (call azAny) n s :=
  Fails.call_noWs hn fun _ => Fails.alt (fails_azLit (h.mono fun _ hc => hc.1)) (fails_azLit (h.mono fun _ hc => hc.2.1))

/-- Only the rule of repeals, and that of other texts may fit. -/
theorem root_repeal {text : Str} (hn : NoWs text) (h : Head (fun c => c ≠ 'a' ∧ c ≠ 'A' ∧ c ≠ 'E') text) {x : GRepeal} (hr : ReadsG G repeal 0 text [] x) :
    ReadsG G root 0 text [] (.repeal x) := by
  have hb : ∀ {γ δ : Type} (q : Unit → PS δ) (f : δ → Root), FailsG G (entire (PS.lift (call azAny) >>= q) f) 0 (text ++ []) := fun q f => by
    rw [List.append_nil]
    exact fails_entire hn (FailsG.bind (FailsG.lift (fails_azAny hn h)))
  refine ReadsG.right (hb (γ := Unit) _ _) <| ReadsG.right (hb (γ := Unit) _ _) <| ReadsG.right (hb (γ := Unit) _ _) <| ReadsG.right (hb (γ := Unit) _ _) <|
    ReadsG.right ?_ (ReadsG.left (reads_entire hn hr))
  rw [List.append_nil]
  refine fails_entire hn (FailsG.lift (Fails.bind (Fails.alt (Fails.bind (Fails.toks ?_)) (Fails.call_noWs hn fun _ => fails_azLit (h.mono fun _ hc => hc.2.1)))))
  rw [skipWs_noWs hn]
  intro w hw
  simp only [List.mem_cons, List.not_mem_nil, or_false] at hw
  rcases hw with rfl | rfl <;> exact not_prefix_of_head (by decide) fun e => (h _ e.symm).2.2 rfl

/-- What is after the places of a repeal. -/
def repealEnd (s : RepealSentence) : Str := listText RepealedText.text s.texts ++ str!"."

theorem repealEnd_ended {s : RepealSentence} (hs : s.Usual) : Ended (repealEnd s) ∧ ∀ n, Fails (call listSeparator) n (repealEnd s) := by
  unfold repealEnd
  cases ht : s.texts with
  | nil => exact ⟨ended_dot, fun n => fails_listSeparator (.cons (by decide))⟩
  | cons y l =>
    obtain ⟨sep, x⟩ := y
    have hsep : sep ∈ [str!" a ", str!" az "] := hs.firstText (sep, x) (by rw [ht]; rfl)
    obtain ⟨r, hr⟩ := repealed_head x (listText RepealedText.text l ++ str!".")
    have e : listText RepealedText.text ((sep, x) :: l) ++ str!"." = sep ++ '„' :: r := by rw [← hr]; simp [listText]
    rw [e]
    obtain ⟨a, ha, e2⟩ : ∃ a ∈ [str!"a", str!"az"], sep ++ '„' :: r = ' ' :: a ++ (' ' :: '„' :: r) := by
      simp only [List.mem_cons, List.not_mem_nil, or_false] at hsep
      rcases hsep with rfl | rfl
      exacts [⟨str!"a", by decide, rfl⟩, ⟨str!"az", by decide, rfl⟩]
    rw [e2]
    exact ⟨ended_quote ha r, quote_noSeparator ha _⟩

/-- Repealed words do not name a part of an attachment. -/
theorem noPart_repealed : ∀ (l : List (Str × RepealedText)) (_ : ∀ x ∈ l, x.1 ∈ separators ∧ x.2.Usual) (x : RepealedText) (_ : x.Usual) (v : Str)
    (_ : v = [] ∨ v = [' ']), NoPart (v ++ (x.text ++ (listText RepealedText.text l ++ str!"."))) := by
  intro l
  induction l with
  | nil =>
    intro _ x hx v hv
    cases he : x.ending with
    | none =>
      have := noPart_quote (sep := []) hv hx.words (fun n => ⟨_, reads_noJunkSeparator (s := str!".") (n := n) (.cons (by decide))⟩) noPart_dot
      simpa [RepealedText.text, he, listText] using this
    | some e =>
      have := noPart_quote (sep := []) hv hx.words (fun n => ⟨_, reads_noJunkSeparator (s := ' ' :: str!"szöveg" ++ (e ++ str!".")) (n := n) (.cons (by decide))⟩) (noPart_szoveg _)
      simpa [RepealedText.text, he, listText] using this
  | cons y l ih =>
    intro hl x hx v hv
    obtain ⟨sep, x2⟩ := y
    have hy := hl _ (List.mem_cons_self ..)
    cases he : x.ending with
    | some e =>
      have := noPart_quote (sep := []) hv hx.words (fun n => ⟨_, reads_noJunkSeparator (s := ' ' :: str!"szöveg" ++ (e ++ (listText RepealedText.text ((sep, x2) :: l) ++ str!"."))) (n := n) (.cons (by decide))⟩) (noPart_szoveg _)
      simpa [RepealedText.text, he] using this
    | none =>
      have h2 := ih (fun z hz => hl z (List.mem_cons_of_mem _ hz)) x2 hy.2 [] (.inl rfl)
      obtain ⟨r, hr⟩ := repealed_head x2 (listText RepealedText.text l ++ str!".")
      have := noPart_quote (sep := sep) hv hx.words (rest := x2.text ++ (listText RepealedText.text l ++ str!".")) (fun n => ?_) h2
      · simpa [RepealedText.text, he, listText] using this
      · rw [hr]
        obtain ⟨s, v', e, hs, hv'⟩ := reads_separator (n := n) hy.1 (quote_itemStart r)
        subst e
        refine ⟨_, Reads.opt_some (Reads.bind (a := ()) (b := some ()) (t := s) (u := v') ?_ ?_)⟩
        · unfold Reads at hs ⊢
          rwa [listSeparator_call] at hs
        · refine Reads.opt_some (Reads.ws ?_ (noWs_cons (by decide)))
          rcases hv' with rfl | rfl <;> simp [isWs]

theorem repealEnd_shut {s : RepealSentence} (hs : s.Usual) : LastShut s.targets (repealEnd s) := by
  intro r hr a ha
  refine ⟨fun n => ?_, fun _ n => (repealEnd_ended hs).2 n⟩
  unfold repealEnd
  cases ht : s.texts with
  | nil => exact dot_noJunk n
  | cons y l =>
    obtain ⟨sep, x⟩ := y
    have hsep : sep ∈ [str!" a ", str!" az "] := hs.firstText (sep, x) (by rw [ht]; rfl)
    have h1 := noPart_repealed l (fun z hz => ⟨hs.otherTexts z (by rw [ht]; exact hz), hs.texts z (by rw [ht]; exact List.mem_cons_of_mem _ hz)⟩)
      x (hs.texts (sep, x) (by rw [ht]; exact List.mem_cons_self ..)) [' '] (.inr rfl)
    obtain ⟨r, hr⟩ := repealed_head x (listText RepealedText.text l ++ str!".")
    rw [hr] at h1
    have e : listText RepealedText.text ((sep, x) :: l) ++ str!"." = sep ++ '„' :: r := by rw [← hr]; simp [listText]
    rw [e]
    simp only [List.mem_cons, List.not_mem_nil, or_false] at hsep
    rcases hsep with rfl | rfl
    · exact article_noJunk (a := str!"a") (by decide) h1 n
    · exact article_noJunk (a := str!"az") (by decide) h1 n

theorem reads_repealTargets {s : RepealSentence} (hs : s.Usual) (n : Nat) :
    ∃ xs, Reads (many textReferenceItem) n (listText Target.text s.targets) (repealEnd s) xs ∧ List.Forall₂ TargetAt (s.targets.map Prod.snd) xs := by
  obtain ⟨h1, h2⟩ := repealEnd_ended hs
  cases ht : s.targets with
  | nil => exact ⟨[], Reads.many_nil (h1.fails n), .nil⟩
  | cons y l =>
    obtain ⟨sep, t⟩ := y
    have hsep : sep = str!" " := (hs.first (sep, t) (by rw [ht]; rfl)).1
    subst hsep
    obtain ⟨t1, t2, x, xs, e, hne, h3, h4, h5⟩ := reads_targets l (fun z hz => ⟨hs.others z (by rw [ht]; exact hz), hs.targets z (by rw [ht]; exact List.mem_cons_of_mem _ hz)⟩)
      h1 h2 t (hs.targets (_, t) (by rw [ht]; exact List.mem_cons_self ..)) (targetChain_sep (ht ▸ hs.attachments)) (lastShut_sep (ht ▸ repealEnd_shut hs)) [' '] (.inr rfl) n
    have e' : listText Target.text ((str!" ", t) :: l) = t1 ++ t2 := by rw [← e]; simp [listText]
    rw [e']
    exact ⟨x :: xs, Reads.many_cons hne h3 h4, h5⟩

theorem reads_repealedTexts {s : RepealSentence} (hs : s.Usual) (n : Nat) :
    Reads (many repealText) n (listText RepealedText.text s.texts) str!"." (s.texts.map fun x => x.2.words) := by
  cases ht : s.texts with
  | nil =>
    refine Reads.many_nil (Fails.bind_of (t := []) (rest := str!".") (reads_noAz (.cons (by decide)) (noWs_cons (by decide))) ?_)
    exact Fails.bind (Fails.call_noWs (noWs_cons (by decide)) fun _ => fails_quote (.cons (by decide)))
  | cons y l =>
    obtain ⟨sep, x⟩ := y
    have hsep : sep ∈ [str!" a ", str!" az "] := hs.firstText (sep, x) (by rw [ht]; rfl)
    obtain ⟨t1, t2, e, hne, h1, h2⟩ := reads_repealTexts l (fun z hz => ⟨hs.otherTexts z (by rw [ht]; exact hz), hs.texts z (by rw [ht]; exact List.mem_cons_of_mem _ hz)⟩)
      x (hs.texts (sep, x) (by rw [ht]; exact List.mem_cons_self ..)) sep (List.mem_cons_of_mem _ (List.mem_cons_of_mem _ hsep)) n
    have e' : listText RepealedText.text ((sep, x) :: l) = t1 ++ t2 := by rw [← e]; simp [listText]
    rw [e']
    exact Reads.many_cons hne h1 h2

/-- How a repeal is parsed. -/
theorem parse_repeal {s : RepealSentence} (hs : s.Usual) {I : Str} {a : ActReference} {k : Nat} (hG : G ⟨known, []⟩) (hk : k = byteLen (s.verb ++ (str!" " ++ (s.intro.article ++ str!" "))))
    (hi : ReadsG G titledActReference k I s.rest a) :
    ∃ xs, List.Forall₂ TargetAt (s.targets.map Prod.snd) xs ∧
      parse (s.verb ++ (str!" " ++ (s.intro.article ++ str!" ") ++ (I ++ s.rest))) known = some (.repeal ⟨a, xs, s.texts.map fun x => x.2.words⟩) := by
  obtain ⟨xs, h1, h2⟩ := reads_repealTargets hs (k + byteLen I)
  refine ⟨xs, h2, parse_of_root hG ?_⟩
  obtain ⟨v1, v2, v3⟩ := verb_facts hs.verb (str!" " ++ (s.intro.article ++ str!" ") ++ (I ++ s.rest))
  refine root_repeal v1 v2 ?_
  have ha : s.intro.article ++ str!" " = str!"a " ∨ s.intro.article ++ str!" " = str!"az " := by
    have := hs.article
    simp only [List.mem_cons, List.not_mem_nil, or_false] at this
    rcases this with e | e <;> rw [e] <;> simp
  refine ReadsG.bind (ReadsG.lift (by rw [List.append_nil]; exact v3 _)) (ReadsG.bind (a := ()) (ReadsG.lift ?_) (ReadsG.bind (a := a) ?_ ?_))
  · refine Reads.call_space ?_ (reads_az ha)
    rcases ha with e | e <;> rw [e] <;> exact noWs_cons (by decide)
  · have e : 0 + byteLen s.verb + byteLen (str!" " ++ (s.intro.article ++ str!" ")) = k := by rw [hk, byteLen_append' s.verb, Nat.zero_add]
    rw [List.append_nil, e]
    exact hi
  · have e : 0 + byteLen s.verb + byteLen (str!" " ++ (s.intro.article ++ str!" ")) = k := by rw [hk, byteLen_append' s.verb, Nat.zero_add]
    rw [e]
    have e2 : s.rest = listText Target.text s.targets ++ (listText RepealedText.text s.texts ++ str!".") := by simp [RepealSentence.rest]
    rw [e2]
    refine ReadsG.bind (a := xs) (ReadsG.lift (by rw [List.append_nil]; exact h1)) (ReadsG.bind (ReadsG.lift (by rw [List.append_nil]; exact reads_repealedTexts hs _)) ?_)
    exact ReadsG.map (g := fun _ => (⟨a, xs, s.texts.map fun x => x.2.words⟩ : GRepeal)) (a := ()) (ReadsG.lift (Reads.tok (s := str!".") (noWs_cons (by decide))))

end HunLaw.Grammar
