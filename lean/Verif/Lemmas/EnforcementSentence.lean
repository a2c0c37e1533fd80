import Verif.Lemmas.Enforcement

/-! Reading sentences about the day of coming into force. -/

set_option autoImplicit false

namespace HunLaw.Grammar

open HunLaw Spec P

variable {α β : Type}

/-! ### nothing else is named before the time -/

/-- The beginning of something which is not the name of a structural element, nor of an attachment. -/
structure Unnamed (s : Str) : Prop where
  noWs : NoWs s
  quote : Head (· ≠ '„') s
  upper : Head (isHunUpper · = false) s
  roman : Head (isRomanChar · = false) s
  digit : Head (isDigit · = false) s ∨ YearMonth s

theorem capitals_head : ∀ w ∈ [str!"Első", str!"Második", str!"Harmadik", str!"Negyedik",
  str!"Ötödik", str!"Hatodik", str!"Hetedik", str!"Nyolcadik", str!"Kilencedik", str!"Tizedik",
  str!"Tizenegyedik", str!"Tizenkettedik", str!"Tizenharmadik", str!"Tizennegyedik", str!"Tizenötödik",
  str!"Tizenhatodik", str!"Tizenhetedik", str!"Tizennyolcadik", str!"Tizenkilencedik",
  str!"ELSŐ", str!"MÁSODIK", str!"HARMADIK", str!"NEGYEDIK", str!"ÖTÖDIK",
  str!"HATODIK", str!"HETEDIK", str!"NYOLCADIK", str!"KILENCEDIK", str!"TIZEDIK",
  str!"TIZENEGYEDIK", str!"TIZENKETTEDIK", str!"TIZENHARMADIK", str!"TIZENNEGYEDIK", str!"TIZENÖTÖDIK",
  str!"TIZENHATODIK", str!"TIZENHETEDIK", str!"TIZENNYOLCADIK", str!"TIZENKILENCEDIK"], ∃ c ∈ w.head?, isHunUpper c = true := by
  decide +kernel

theorem fails_capital {n : Nat} {s : Str} (h : Head (isHunUpper · = false) s) : Fails hungarianOrdinalCapital n s := by
  refine Fails.slice (Fails.lits fun w hw => ?_)
  obtain ⟨c, hc, hu⟩ := capitals_head w hw
  rintro ⟨x, rfl⟩
  cases w with
  | nil => cases hc
  | cons d w => simp at hc; subst hc; rw [h _ rfl] at hu; cases hu

theorem fails_roman {n : Nat} {s : Str} (h : Head (isRomanChar · = false) s) : Fails roman n s :=
  Fails.slice (Fails.many1 (Fails.char h))

theorem reads_subtitle_year {k : Nat} {m r : Str} (hm : m ∈ monthWords) (n : Nat) :
    Reads subtitlePart n (dec k ++ str!".") (' ' :: m ++ r) (.single (dec k)) := by
  have hid : ∀ n, Reads subtitleId n (dec k) (str!"." ++ (' ' :: m ++ r)) (dec k) := fun n => by
    refine Reads.slice (a := ()) (Reads.bind_last (Reads.call (noWs_dec _ _) reads_number_dot) (Reads.map (a := none) (Reads.opt_none ?_)))
    refine Fails.bind_of (t := []) (a := none) (Reads.opt_none (Fails.tok (by decide) ?_))
      (Fails.call_noWs (noWs_cons (by decide)) fun _ => Fails.char (Head.cons (f := (upperAz · = false)) (by decide)))
    rw [skipWs_cons (by decide)]
    simp
  refine Reads.right ?_ (Reads.bind (Reads.call (noWs_dec _ _) (hid _)) (Reads.map reads_dot))
  rw [List.append_assoc]
  refine Fails.bind_of (Reads.call (noWs_dec _ _) (hid _)) (Fails.bind_of (a := some ()) (Reads.opt_some reads_dot) ?_)
  refine Fails.bind (fails_call_dash ?_)
  rw [skip_month hm]
  obtain ⟨c, hc, h1⟩ := monthWords_head m hm
  cases m with
  | nil => cases hc
  | cons d m => simp at hc; subst hc; exact .cons h1.2.1

theorem fails_structural {n : Nat} {s : Str} (h : Unnamed s) : Fails structuralReference n s := by
  have hcap : ∀ n, Fails (call hungarianOrdinalCapital) n s := fun n => Fails.call_noWs h.noWs fun n => fails_capital h.upper
  have hrom : ∀ n, Fails (call romanId) n s := fun n => Fails.call_noWs h.noWs fun n =>
    Fails.slice (Fails.bind (Fails.call_noWs h.noWs fun n => fails_roman h.roman))
  refine Fails.bind_of (t := []) (a := none) (Reads.opt_none (Fails.call_noWs h.noWs fun n => Fails.bind (hcap _))) (Fails.bind ?_)
  refine Fails.alt (Fails.bind (Fails.call_noWs h.noWs fun n => Fails.bind (hrom _))) <|
    Fails.alt (Fails.bind (Fails.call_noWs h.noWs fun n => Fails.bind (hcap _))) <|
    Fails.alt (Fails.bind (Fails.call_noWs h.noWs fun n => Fails.bind (hrom _))) <|
    Fails.alt ?_ (Fails.bind (Fails.call_noWs h.noWs fun n => Fails.bind (Fails.alt ?_ ?_)))
  · rcases h.digit with hd | ⟨y, m, r, hm, e⟩
    · have : ∀ n, Fails (call subtitleId) n s := fun n => Fails.call_noWs h.noWs fun n =>
        Fails.slice (Fails.bind (Fails.call_noWs h.noWs fun n => fails_number hd))
      exact Fails.bind (Fails.call_noWs h.noWs fun n => Fails.alt (Fails.bind (this _)) (Fails.bind (this _)))
    · rw [e, ← List.append_assoc]
      refine Fails.bind_of (Reads.call (by rw [List.append_assoc]; exact noWs_dec _ _) (reads_subtitle_year hm _))
        (Fails.bind (Fails.call fun n => ?_))
      rw [skip_month hm]
      exact Fails.bind (Fails.lit (not_month hm (by decide)))
  · refine Fails.call_noWs h.noWs fun n => fails_quote ?_
    rw [skipWs_noWs h.noWs]; exact h.quote
  · exact Fails.call_noWs h.noWs fun n => Fails.slice (Fails.bind (Fails.call_noWs h.noWs fun n => Fails.bind (Fails.char h.upper)))

theorem fails_subtitles {n : Nat} {s : Str} (h : Unnamed s) : Fails subtitlesReference n s := by
  rcases h.digit with hd | ⟨y, m, r, hm, e⟩
  · have : ∀ n, Fails (call subtitleId) n s := fun n => Fails.call_noWs h.noWs fun n =>
      Fails.slice (Fails.bind (Fails.call_noWs h.noWs fun n => fails_number hd))
    exact Fails.bind (fails_listOf h.noWs fun n => Fails.alt (Fails.bind (this _)) (Fails.bind (this _)))
  · have hws := h.noWs
    rw [e, ← List.append_assoc] at hws ⊢
    exact fails_list_one hws (fun n => ⟨_, reads_subtitle_year hm n⟩) (bad_month hm fun n =>
      Fails.bind (Fails.lit (not_month hm (by decide)))) n

theorem fails_attachments {n : Nat} {s : Str} (h : Unnamed s) : Fails attachmentReference n s := by
  rcases h.digit with hd | ⟨y, m, r, hm, e⟩
  · exact fails_attachment h.noWs hd
  · have hws := h.noWs
    rw [e, ← List.append_assoc] at hws ⊢
    have hnum : ∀ n, Reads (call number) n (dec y) (str!"." ++ (' ' :: m ++ r)) (dec y) := fun n =>
      Reads.call (noWs_dec _ _) reads_number_dot
    refine fails_list_one hws (fun n => ⟨(), ?_⟩) (bad_month hm fun n => ?_) n
    · refine Reads.bind (a := ()) (Reads.right ?_ (Reads.map (g := fun _ => ()) (hnum _))) reads_dot
      exact Fails.bind_of (hnum _) (Fails.bind dot_noDash)
    · exact Fails.bind_of (t := []) (a := none) (Reads.opt_none (Fails.lit (not_month hm (by decide))))
        (Fails.bind (Fails.lit (not_month hm (by decide))))

theorem fails_enforcementReference {n : Nat} {s : Str} (h : Unnamed s) (hl : NoLevel s) : Fails enforcementReference n s :=
  Fails.alt (Fails.bind (fails_call_reference hl)) <|
  Fails.alt (Fails.bind (Fails.call_noWs h.noWs fun n => fails_structural h)) <|
  Fails.alt (Fails.bind (Fails.call_noWs h.noWs fun n => fails_subtitles h))
    (Fails.bind (Fails.call_noWs h.noWs fun n => fails_attachments h))

theorem time_unnamed {a s : Str} (ha : a ∈ nounArticles) (h : TimeStart s) : Unnamed (a ++ s) := by
  obtain ⟨c, r, e, hc⟩ := timeStart_head h
  simp only [nounArticles, List.mem_cons, List.not_mem_nil, or_false] at ha
  rcases ha with rfl | rfl | rfl
  · rw [List.nil_append]
    refine ⟨e ▸ noWs_cons hc.ws, e ▸ .cons hc.quote, e ▸ .cons hc.upper, e ▸ .cons hc.roman, ?_⟩
    cases h with
    | year y m r hm e => exact .inr ⟨y, m, r, hm, e⟩
    | published p r hp e => rw [e]; exact .inl (publication_start hp _).2
  · exact ⟨noWs_cons (by decide), .cons (by decide), .cons (by decide), .cons (by decide), .inl (.cons (by decide))⟩
  · exact ⟨noWs_cons (by decide), .cons (by decide), .cons (by decide), .cons (by decide), .inl (.cons (by decide))⟩

theorem time_noSeparator {n : Nat} {a s : Str} (ha : a ∈ nounArticles) (h : TimeStart s) : Fails (call listSeparator) n (' ' :: (a ++ s)) := by
  obtain ⟨c, r, e, hc⟩ := timeStart_head h
  have hsep := hc.sep
  refine fails_listSeparator ?_
  rw [show skipWs (' ' :: (a ++ s)) = skipWs (a ++ s) from rfl, skipWs_noWs (time_unnamed ha h).noWs]
  simp only [nounArticles, List.mem_cons, List.not_mem_nil, or_false] at ha
  rcases ha with rfl | rfl | rfl
  · rw [e]; exact .cons ⟨hsep.1, hsep.2.1, hsep.2.2.1, hsep.2.2.2.1, hsep.2.2.2.2.1⟩
  · exact .cons (by decide)
  · exact .cons (by decide)

theorem time_itemStart {s : Str} (h : TimeStart s) : ItemStart s := by
  obtain ⟨c, r, e, hc⟩ := timeStart_head h
  have hsep := hc.sep
  refine ⟨e ▸ noWs_cons hc.ws, fun w hw => ?_, ?_, ?_⟩
  · rw [e]
    simp only [sepWords, List.mem_cons, List.not_mem_nil, or_false] at hw
    rcases hw with rfl | rfl | rfl | rfl <;> refine not_prefix_of_head (by decide) ?_ <;> simp <;> intro e <;> subst e <;> simp at hsep
  all_goals
    rw [e]
    refine not_prefix_of_head (by decide) ?_
    simp; intro e; subst e; simp at hsep

/-! ### exceptions -/

theorem takes_exception : Takes enforcementException fun _ t => str!" kivétel" <:+: t := by
  have hr : ∀ s t : Str, str!" kivétel" <:+: t → str!" kivétel" <:+: s ++ t := fun s t ⟨a, b, h⟩ => ⟨s ++ a, b, by rw [← h]; simp⟩
  have hl : ∀ s t : Str, str!" kivétel" <:+: s → str!" kivétel" <:+: s ++ t := fun s t ⟨a, b, h⟩ => ⟨a, b ++ t, by rw [← h]; simp⟩
  have hj : Takes exceptionJunk fun _ t => str!" kivétel" <:+: t :=
    takes_right (fun _ => hr) fun _ => takes_right (fun _ => hr) fun _ =>
      takes_left (L := fun t => str!" kivétel" <:+: t) hl ((Takes.lit _).mono fun _ t e => e ▸ List.infix_rfl)
  exact takes_right (fun _ => hr) fun _ => takes_right (fun _ => hr) fun _ => takes_right (fun _ => hr) fun _ =>
    takes_left (L := fun t => str!" kivétel" <:+: t) hl ((Takes.call hj).mono fun _ t ⟨b, u, _, e, h⟩ => e ▸ hr b u h)

theorem fails_exception {n : Nat} {s : Str} (h : ¬ str!" kivétel" <:+: s) : Fails enforcementException n s := by
  rcases hp : enforcementException.run ⟨n, s⟩ with _ | ⟨a, j⟩
  · exact hp
  · obtain ⟨t, e, ⟨x, y, h2⟩⟩ := takes_exception _ _ _ hp
    exact absurd ⟨x, y ++ j.rest, by rw [show s = t ++ j.rest from e, ← h2]; simp⟩ h

/-! ### the time after a space -/

theorem call_space_run (p : P α) {n : Nat} {s : Str} (h : NoWs s) : (P.call p).run ⟨n, ' ' :: s⟩ = (P.call p).run ⟨n + 1, s⟩ := by
  have h1 : ∀ i : Inp, (P.call p).run i = p.run (i.drop (i.rest.takeWhile P.isWs).length) := fun _ => rfl
  rw [h1, h1]
  have e1 : List.takeWhile isWs (' ' :: s) = [' '] := takeWhile_append_noWs (w := [' ']) (by decide) h
  show p.run ((⟨n, ' ' :: s⟩ : Inp).drop (List.takeWhile isWs (' ' :: s)).length) = p.run ((⟨n + 1, s⟩ : Inp).drop (List.takeWhile isWs s).length)
  rw [e1, takeWhile_noWs h]
  simp [Inp.drop, byteLen]
  rfl

theorem reads_time_space {t : WhenText} {e : EnforcementDateType} (ht : t.Means e) {n : Nat} {v rest : Str} (hv : v = [] ∨ v = [' ']) :
    Reads enforcementWhen n (v ++ t.text) rest (timeAt t) := by
  rcases hv with rfl | rfl
  · exact reads_time ht
  · have h := reads_time ht (n := n + 1) (rest := rest)
    have hws : NoWs (t.text ++ rest) := (time_itemStart (time_start ht rest)).noWs
    have e : enforcementWhen.run ⟨n, ' ' :: (t.text ++ rest)⟩ = enforcementWhen.run ⟨n + 1, t.text ++ rest⟩ := by
      unfold enforcementWhen
      simp only [alt_run, bind_run, call_space_run _ hws]
    unfold Reads at h ⊢
    show enforcementWhen.run ⟨n, ' ' :: (t.text ++ rest)⟩ = _
    rw [e, h]
    simp [byteLen, utf8Len]
    omega

/-! ### the loss of force -/

theorem day_noWs (d : DayText) (r : Str) : NoWs (d.text ++ r) := by
  rw [DayText.text]; simp only [List.append_assoc]; exact noWs_dec _ _

theorem day_digit (d : DayText) (r : Str) : Head (isDigit · = true) (d.text ++ r) := by
  rw [DayText.text]; simp only [List.append_assoc]; exact dec_start _ _

theorem reads_repealEnd {d : DayText} (hd : d.Usual) {n : Nat} {rest : Str} :
    Reads (call date >>= fun d => opt (tok str!"a") >>= fun _ => tok str!"hatályát veszti" >>= fun _ => (pure d : P GDate)) n
      (' ' :: (d.text ++ str!" hatályát veszti")) rest (dayAt d) := by
  show Reads _ n ((' ' :: d.text) ++ str!" hatályát veszti") rest _
  refine Reads.bind (Reads.call_space (day_noWs _ _) (reads_date hd)) (Reads.bind_first (a := none) (Reads.opt_none ?_) ?_)
  · exact Fails.tok (by decide) (by
      rw [show skipWs (str!" hatályát veszti" ++ rest) = str!"hatályát veszti" ++ rest from rfl]; simp)
  · exact Reads.map (a := ()) (g := fun _ => dayAt d) (Reads.tok_space (s := str!"hatályát veszti") (noWs_cons (by decide)))

theorem reads_repealMiddle {mid : Str} {d : DayText} (hm : mid ∈ [str!"", str!" e törvény", str!" ez a törvény"]) (hd : d.Usual)
    {n : Nat} {rest : Str} :
    Reads (opt (do toks [str!"ez a", str!"e"]; tok str!"törvény") >>= fun _ =>
        call date >>= fun d => opt (tok str!"a") >>= fun _ => tok str!"hatályát veszti" >>= fun _ => (pure d : P GDate)) n
      (mid ++ (' ' :: (d.text ++ str!" hatályát veszti"))) rest (dayAt d) := by
  have hlaw : ∀ n r, Reads (tok str!"törvény") n str!" törvény" r () := fun n r =>
    Reads.tok_space (s := str!"törvény") (noWs_cons (by decide))
  simp only [List.mem_cons, List.not_mem_nil, or_false] at hm
  rcases hm with rfl | rfl | rfl
  · refine Reads.bind_first (a := none) (Reads.opt_none (Fails.bind (Fails.toks fun w hw => ?_))) (reads_repealEnd hd)
    rw [show skipWs ([] ++ ' ' :: (d.text ++ str!" hatályát veszti") ++ rest) = skipWs (d.text ++ (str!" hatályát veszti" ++ rest)) by
      simp [skipWs, isWs], skipWs_noWs (day_noWs _ _)]
    have hdig := day_digit d (str!" hatályát veszti" ++ rest)
    rintro ⟨x, hx⟩
    rw [← hx] at hdig
    simp only [List.mem_cons, List.not_mem_nil, or_false] at hw
    rcases hw with rfl | rfl <;> exact absurd (hdig 'e' rfl) (by decide)
  · refine Reads.bind (a := some ()) (Reads.opt_some ?_) (reads_repealEnd hd)
    refine Reads.bind (t := str!" e") (a := ()) (Reads.call_space (t := str!"e") (noWs_cons (by decide)) ?_) (hlaw _ _)
    exact Reads.lits (l := [str!"ez a"]) (k := []) (s := str!"e") (by simp)
  · refine Reads.bind (a := some ()) (Reads.opt_some ?_) (reads_repealEnd hd)
    refine Reads.bind (t := str!" ez a") (a := ()) (Reads.call_space (t := str!"ez a") (noWs_cons (by decide)) ?_) (hlaw _ _)
    exact Reads.lits (l := []) (k := [str!"e"]) (s := str!"ez a") (by simp)

theorem mem_repealJoints {j : Str} (h : j ∈ repealJoints) : ∃ k mid, (k = str!" és" ∨ k = str!", és") ∧
    mid ∈ [str!"", str!" e törvény", str!" ez a törvény"] ∧ j = k ++ mid ++ [' '] := by
  simp only [repealJoints, List.mem_flatMap, List.mem_cons, List.not_mem_nil, or_false] at h
  obtain ⟨k, hk, h⟩ := h
  refine ⟨k, ?_⟩
  rcases h with rfl | rfl | rfl
  · exact ⟨[], hk, by simp, by simp⟩
  · exact ⟨str!" e törvény", hk, by simp, by simp⟩
  · exact ⟨str!" ez a törvény", hk, by simp, by simp⟩

theorem reads_inlineRepeal {j : Str} {d : DayText} (hj : j ∈ repealJoints) (hd : d.Usual) {n : Nat} {rest : Str} :
    Reads (call inlineRepeal) n (j ++ d.text ++ str!" hatályát veszti") rest (dayAt d) := by
  obtain ⟨k, mid, hk, hm, rfl⟩ := mem_repealJoints hj
  rcases hk with rfl | rfl
  · rw [show str!" és" ++ mid ++ [' '] ++ d.text ++ str!" hatályát veszti" =
      ' ' :: (str!"és" ++ (mid ++ (' ' :: (d.text ++ str!" hatályát veszti")))) by simp]
    refine Reads.call_space (noWs_cons (by decide)) ?_
    refine Reads.bind_first (a := none) (Reads.opt_none (Fails.tok (by decide) ?_)) ?_
    · rw [skipWs_noWs (by exact noWs_cons (by decide))]; simp
    · exact Reads.bind (a := ()) (Reads.tok (noWs_cons (by decide))) (reads_repealMiddle hm hd)
  · rw [show str!", és" ++ mid ++ [' '] ++ d.text ++ str!" hatályát veszti" =
      str!"," ++ (str!" és" ++ (mid ++ (' ' :: (d.text ++ str!" hatályát veszti")))) by simp]
    refine Reads.call (noWs_cons (by decide)) ?_
    refine Reads.bind (a := some ()) (Reads.opt_some (Reads.tok (noWs_cons (by decide)))) ?_
    exact Reads.bind (a := ()) (Reads.tok_space (s := str!"és") (noWs_cons (by decide))) (reads_repealMiddle hm hd)

end HunLaw.Grammar
