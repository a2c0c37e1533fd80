import Verif.Lemmas.WrittenValue
import Verif.Lemmas.WrittenText
import Verif.Lemmas.Announced
import Verif.Spec.Enforcement

/-! The grammar recognises sentences about coming into force. -/

set_option autoImplicit false

namespace HunLaw.Grammar

open HunLaw P Spec

variable {α β : Type}

/-! ### one of several words -/

theorem prefix_cases {u w r : Str} (h : u <+: w ++ r) : u <+: w ∨ w <+: u := by
  rcases List.prefix_or_prefix_of_prefix h (List.prefix_append w r) with h | h
  · exact .inl h
  · exact .inr h

theorem not_prefix_words {u w r : Str} (h1 : ¬ u <+: w) (h2 : ¬ w <+: u) : ¬ u <+: w ++ r := fun h =>
  (prefix_cases h).elim h1 h2

/-- One of some words, none of which is the beginning of another. -/
theorem reads_one {l : List Str} {w : Str} (hw : w ∈ l) (hl : ∀ u ∈ l, u ≠ w → ¬ u <+: w ∧ ¬ w <+: u) {n : Nat} {rest : Str} :
    Reads (P.lits l) n w rest () := by
  induction l with
  | nil => cases hw
  | cons v l ih =>
    by_cases hv : v = w
    · subst hv
      exact Reads.left (p := P.lit v) (Reads.lit v)
    · have h := hl v (List.mem_cons_self ..) hv
      refine Reads.right (p := P.lit v) (Fails.lit (not_prefix_words h.1 h.2)) (ih ?_ fun u hu => hl u (List.mem_cons_of_mem _ hu))
      rcases List.mem_cons.1 hw with rfl | hw
      · exact absurd rfl hv
      · exact hw

/-! ### days of the calendar -/

theorem monthWords_free : ∀ w ∈ monthWords, ∀ u ∈ monthWords, u ≠ w → ¬ u <+: w ∧ ¬ w <+: u := by decide +kernel

theorem monthWords_head : ∀ m ∈ monthWords, ∃ c ∈ m.head?, isWs c = false ∧ isDashChar c = false ∧ c ≠ ',' ∧ c ≠ ';' ∧ c ≠ 'é' ∧
    c ≠ 'v' ∧ c ≠ 'i' ∧ c ≠ '§' ∧ c ≠ '.' := by decide +kernel

theorem month_noWs {m : Str} (h : m ∈ monthWords) (r : Str) : NoWs (m ++ r) := by
  obtain ⟨c, hc, h1, -⟩ := monthWords_head m h
  cases m with
  | nil => cases hc
  | cons d m => simp at hc; subst hc; exact noWs_cons h1

theorem reads_month {m : Str} (h : m ∈ monthWords) {n : Nat} {rest : Str} : Reads month n m rest m :=
  Reads.slice (reads_one (l := monthWords) h (monthWords_free m h))

def endings : List Str := [str!"-án", str!"-jén", str!"-én", str!". napján"]

theorem ending_mem {e : Str} (h : e ∈ [str!"-án", str!"-én", str!"-jén", str!". napján"]) : e ∈ endings :=
  (by decide : ∀ e ∈ [str!"-án", str!"-én", str!"-jén", str!". napján"], e ∈ endings) e h

theorem ending_start {e : Str} (h : e ∈ endings) (r : Str) : Head (fun c => isDigit c = false ∧ isWs c = false) (e ++ r) := by
  obtain ⟨c, hc, h1⟩ := (by decide : ∀ e ∈ endings, ∃ c ∈ e.head?, isDigit c = false ∧ isWs c = false) e h
  cases e with
  | nil => cases hc
  | cons d e => simp at hc; subst hc; exact .cons h1

/-- The result for a day. -/
def dayAt (d : DayText) : GDate := ⟨dec d.year, d.month, dec d.day⟩

theorem reads_date {d : DayText} (hd : d.Usual) {n : Nat} {rest : Str} : Reads date n d.text rest (dayAt d) := by
  have he := ending_mem hd.ending
  have ht : d.text = dec d.year ++ (str!"." ++ ((' ' :: d.month) ++ ((' ' :: dec d.day) ++ d.ending))) := by
    simp [DayText.text]
  rw [ht]
  refine Reads.bind (Reads.call (noWs_dec _ _) (reads_number (.cons (by decide)))) ?_
  refine Reads.bind (a := ()) (Reads.tok (noWs_cons (by decide))) ?_
  refine Reads.bind (Reads.call_space (month_noWs hd.month _) (reads_month hd.month)) ?_
  refine Reads.bind (Reads.call_space (noWs_dec _ _) (reads_number ((ending_start he _).mono fun _ h => h.1))) ?_
  refine Reads.map (a := ()) (Reads.call ((ending_start he _).mono fun _ h => h.2) (reads_one he ?_))
  exact (by decide : ∀ w ∈ endings, ∀ u ∈ endings, u ≠ w → ¬ u <+: w ∧ ¬ w <+: u) _ he

theorem fails_date {n : Nat} {s : Str} (h : NoWs s) (hd : Head (isDigit · = false) s) : Fails date n s :=
  Fails.bind (Fails.call_noWs h fun _ => fails_number hd)

/-! ### ordinal numbers -/

def ordinalNames : List Str := ordinalWords.map Prod.fst

theorem ordinal_free : ∀ w ∈ ordinalNames, ∀ u ∈ ordinalNames, u ≠ w → ¬ u <+: w ∧ ¬ w <+: u := by decide +kernel

theorem ordinal_head : ∀ m ∈ ordinalNames, ∃ c ∈ m.head?, isWs c = false ∧ isDigit c = false := by decide +kernel

theorem ordinal_start {m : Str} (h : m ∈ ordinalNames) (r : Str) : NoWs (m ++ r) ∧ Head (isDigit · = false) (m ++ r) := by
  obtain ⟨c, hc, h1, h2⟩ := ordinal_head m h
  cases m with
  | nil => cases hc
  | cons d m => simp at hc; subst hc; exact ⟨noWs_cons h1, .cons h2⟩

theorem reads_hungarianOrdinal {m : Str} (h : m ∈ ordinalNames) {n : Nat} {rest : Str} : Reads hungarianOrdinal n m rest m :=
  Reads.slice (reads_one (l := ordinalNames) h (ordinal_free m h))

theorem fails_hungarianOrdinal {s : Str} (h : ∀ u ∈ ordinalNames, ¬ u <+: s) {n : Nat} : Fails hungarianOrdinal n s :=
  Fails.slice (Fails.lits (l := ordinalNames) h)

/-- The result for a number. -/
def ordinalAt : OrdinalText → Ordinal
  | .word w => .word w
  | .digits k => .number (dec k.val)

/-- One of the words, or any number. -/
def Known : OrdinalText → Prop
  | .word w => w ∈ ordinalNames
  | .digits _ => True

theorem ordinalNames_digit {s : Str} (h : Head (isDigit · = true) s) : ∀ u ∈ ordinalNames, ¬ u <+: s := by
  intro u hu
  obtain ⟨c, hc, h1, h2⟩ := ordinal_head u hu
  refine not_prefix_of_head (by rintro rfl; cases hc) fun e => ?_
  rw [show u.head? = some c from hc] at e
  rw [h c e.symm] at h2
  cases h2

theorem dec_start (k : Nat) (s : Str) : Head (isDigit · = true) (dec k ++ s) :=
  Head.append (Head.of_all (dec_digits k)) (dec_ne_nil k)

theorem reads_ordinal {o : OrdinalText} (ho : Known o) {n : Nat} {rest : Str} :
    Reads ordinal n (' ' :: o.text) rest (ordinalAt o) := by
  cases o with
  | word w =>
    refine Reads.left (Reads.map (g := Ordinal.word) (Reads.call_space (ordinal_start ho _).1 (reads_hungarianOrdinal ho)))
  | digits k =>
    refine Reads.right (Fails.bind (Fails.call_space (s := (OrdinalText.digits k).text ++ rest) ?_ fun n =>
      fails_hungarianOrdinal (ordinalNames_digit ?_))) ?_
    · rw [OrdinalText.text, List.append_assoc]; exact noWs_dec _ _
    · rw [OrdinalText.text, List.append_assoc]; exact dec_start _ _
    · refine Reads.map (g := Ordinal.number) (Reads.call_space (by rw [OrdinalText.text, List.append_assoc]; exact noWs_dec _ _) ?_)
      refine Reads.bind (Reads.call (noWs_dec _ _) (reads_number (.cons (by decide)))) ?_
      exact Reads.map (g := fun _ => dec k.val) (Reads.tok (s := ['.']) (noWs_cons (by decide)))

/-! ### the publication -/

def publicationBare : List Str := [str!"kihirdetését", str!"kihirdetést"]

theorem reads_publicationBare {p rest : Str} (hp : p ∈ publicationBare) {n : Nat} :
    Reads (toks publicationBare) n p rest () ∧ Reads (toks publicationBare) n (' ' :: p) rest () := by
  have h := (by decide : ∀ p ∈ publicationBare, ∃ c ∈ p.head?, isWs c = false) p hp
  have hn : NoWs (p ++ rest) := by
    obtain ⟨c, hc, h1⟩ := h
    cases p with
    | nil => cases hc
    | cons d m => simp at hc; subst hc; exact noWs_cons h1
  have hr := fun n => reads_one (n := n) (rest := rest) hp
    ((by decide : ∀ w ∈ publicationBare, ∀ u ∈ publicationBare, u ≠ w → ¬ u <+: w ∧ ¬ w <+: u) p hp)
  exact ⟨Reads.call hn (hr _), Reads.call_space hn (hr _)⟩

theorem mem_publications {p : Str} (h : p ∈ publications) : ∃ e q, p = e ++ q ∧ q ∈ publicationBare ∧ (e = [] ∨ e = str!"e törvény ") := by
  obtain ⟨e, he, h⟩ := List.mem_flatMap.1 h
  simp only [List.mem_cons, List.not_mem_nil, or_false] at h he
  rcases h with rfl | rfl
  · exact ⟨e, _, rfl, by decide, he⟩
  · exact ⟨e, _, rfl, by decide, he⟩

theorem reads_publication {p : Str} (hp : p ∈ publications) {n : Nat} {rest : Str} :
    Reads publication n (p ++ str!" követő") rest () := by
  obtain ⟨e, q, rfl, hq, he⟩ := mem_publications hp
  have hlast : ∀ n, Reads (tok str!"követő") n str!" követő" rest () := fun n =>
    Reads.tok_space (s := str!"követő") (noWs_cons (by decide))
  rcases he with rfl | rfl
  · refine Reads.bind (t := []) (Reads.opt_none ?_) (Reads.bind (t := q) (a := ()) (reads_publicationBare hq).1 (hlast _))
    refine Fails.toks fun s hs => ?_
    have : skipWs (q ++ str!" követő" ++ rest) = q ++ (str!" követő" ++ rest) := by
      rw [skipWs_noWs, List.append_assoc]
      simp only [publicationBare, List.mem_cons, List.not_mem_nil, or_false] at hq
      rcases hq with rfl | rfl <;> exact noWs_cons (by decide)
    show ¬ s <+: skipWs (q ++ str!" követő" ++ rest)
    rw [this]
    have := (by decide : ∀ q ∈ publicationBare, ∀ s ∈ [str!"a", str!"e törvény"], ¬ s <+: q ∧ ¬ q <+: s) q hq s hs
    exact not_prefix_words this.1 this.2
  · have e : str!"e törvény " ++ q ++ str!" követő" = str!"e törvény" ++ ((' ' :: q) ++ str!" követő") := by simp
    rw [e]
    refine Reads.bind (t := str!"e törvény") (a := some ()) (Reads.opt_some ?_)
      (Reads.bind (a := ()) (reads_publicationBare hq).2 (hlast _))
    exact Reads.call (noWs_cons (by decide)) (reads_one (by decide) (by decide))

/-! ### the time -/

/-- The result for the time. -/
def timeAt : WhenText → EnforcementWhen
  | .day d => .date (dayAt d)
  | .nextDay _ => .afterPublication none
  | .days _ n => .afterPublication (some (ordinalAt n))
  | .dayInMonth _ m d => .dayInMonth m (ordinalAt d)

theorem means_known {o : OrdinalText} {k : Nat} (h : o.Means k) : Known o := by
  cases o with
  | word w => exact List.mem_map.2 ⟨_, h, rfl⟩
  | digits m => trivial

theorem publication_start {p : Str} (hp : p ∈ publications) (r : Str) :
    NoWs (p ++ r) ∧ Head (isDigit · = false) (p ++ r) := by
  obtain ⟨c, hc, h1⟩ := (by decide : ∀ p ∈ publications, ∃ c ∈ p.head?, isWs c = false ∧ isDigit c = false) p hp
  cases p with
  | nil => cases hc
  | cons d m => simp at hc; subst hc; exact ⟨noWs_cons h1.1, .cons h1.2⟩

theorem fails_ordinal {s : Str} (h : NoWs s) (hd : Head (isDigit · = false) s) (ho : ∀ u ∈ ordinalNames, ¬ u <+: s) {n : Nat} :
    Fails ordinal n (' ' :: s) :=
  Fails.alt (Fails.bind (Fails.call_space h fun _ => fails_hungarianOrdinal ho))
    (Fails.bind (Fails.call_space h fun _ => Fails.bind (Fails.call_noWs h fun _ => fails_number hd)))

theorem not_ordinal {w r : Str} (h : ∀ u ∈ ordinalNames, ¬ u <+: w ∧ ¬ w <+: u) : ∀ u ∈ ordinalNames, ¬ u <+: w ++ r :=
  fun u hu => not_prefix_words (h u hu).1 (h u hu).2

theorem reads_time {t : WhenText} {e : EnforcementDateType} (ht : t.Means e) {n : Nat} {rest : Str} :
    Reads enforcementWhen n t.text rest (timeAt t) := by
  have nodate : ∀ {p r : Str} {n : Nat} {γ : Type} {f : GDate → P γ}, p ∈ publications → Fails (call date >>= f) n (p ++ r) :=
    fun hp => Fails.bind (Fails.call_noWs (publication_start hp _).1 fun _ =>
      fails_date (publication_start hp _).1 (publication_start hp _).2)
  have day : ∀ n rest, Reads (tok str!"napon") n str!" napon" rest () := fun n rest =>
    Reads.tok_space (s := str!"napon") (noWs_cons (by decide))
  have inMonth : ∀ n rest, Reads (tok str!"napján") n str!" napján" rest () := fun n rest =>
    Reads.tok_space (s := str!"napján") (noWs_cons (by decide))
  cases ht with
  | day hd =>
    refine Reads.left (Reads.map (g := EnforcementWhen.date) (Reads.call ?_ (reads_date hd)))
    rw [WhenText.text, DayText.text]
    simp only [List.append_assoc]
    exact noWs_dec _ _
  | @nextDay p h =>
    have e : (WhenText.nextDay p).text = (p ++ str!" követő") ++ str!" napon" := by simp [WhenText.text]
    rw [e]
    refine Reads.right (by simp only [List.append_assoc]; exact nodate h) (Reads.left (Reads.call ?_ ?_))
    · simp only [List.append_assoc]; exact (publication_start h _).1
    · refine Reads.bind (reads_publication h) (Reads.bind (t := []) (a := none) (Reads.opt_none ?_) ?_)
      · refine fails_ordinal (s := str!"napon" ++ rest) (noWs_cons (by decide)) (.cons (by decide)) (not_ordinal ?_)
        decide +kernel
      · exact Reads.map (a := ()) (day _ _)
  | @days p o k h hn =>
    have e : (WhenText.days p o).text = (p ++ str!" követő") ++ ((' ' :: o.text) ++ str!" napon") := by simp [WhenText.text]
    rw [e]
    refine Reads.right (by simp only [List.append_assoc]; exact nodate h) (Reads.left (Reads.call ?_ ?_))
    · simp only [List.append_assoc]; exact (publication_start h _).1
    · refine Reads.bind (reads_publication h) (Reads.bind (a := some (ordinalAt o)) (Reads.opt_some (reads_ordinal (means_known hn))) ?_)
      exact Reads.map (a := ()) (day _ _)
  | @dayInNext p o k h hn =>
    have e : (WhenText.dayInMonth p none o).text = (p ++ str!" követő") ++ (str!" hónap" ++ ((' ' :: o.text) ++ str!" napján")) := by
      simp [WhenText.text]
    rw [e]
    have hno : ∀ r, ∀ u ∈ ordinalNames, ¬ u <+: str!"hónap" ++ r := fun r => not_ordinal (by decide +kernel)
    refine Reads.right (by simp only [List.append_assoc]; exact nodate h) (Reads.right ?_ (Reads.call ?_ ?_))
    · refine Fails.call_noWs (by simp only [List.append_assoc]; exact (publication_start h _).1) fun n => ?_
      rw [List.append_assoc]
      refine Fails.bind_of (reads_publication h) (Fails.bind_of (t := []) (a := none) (Reads.opt_none ?_) ?_)
      · exact fails_ordinal (s := str!"hónap" ++ (((' ' :: o.text) ++ str!" napján") ++ rest)) (noWs_cons (by decide))
          (.cons (by decide)) (hno _)
      · exact Fails.bind (Fails.call_space (s := str!"hónap" ++ (((' ' :: o.text) ++ str!" napján") ++ rest))
          (noWs_cons (by decide)) fun _ => Fails.lit_head (by decide) (by simp))
    · simp only [List.append_assoc]; exact (publication_start h _).1
    · refine Reads.bind (reads_publication h) (Reads.bind (t := []) (a := none) (Reads.opt_none ?_) ?_)
      · exact Fails.call_space (s := str!"hónap" ++ (((' ' :: o.text) ++ str!" napján") ++ rest)) (noWs_cons (by decide)) fun _ =>
          fails_hungarianOrdinal (hno _)
      · refine Reads.bind (a := ()) (Reads.tok_space (s := str!"hónap") (noWs_cons (by decide))) ?_
        exact Reads.bind (reads_ordinal (means_known hn)) (Reads.map (a := ()) (inMonth _ _))
  | @dayInMonth p m o j k h hm hn =>
    have e : (WhenText.dayInMonth p (some m) o).text =
        (p ++ str!" követő") ++ ((' ' :: m) ++ (str!" hónap" ++ ((' ' :: o.text) ++ str!" napján"))) := by
      simp [WhenText.text]
    have hm' : m ∈ ordinalNames := List.mem_map.2 ⟨_, hm, rfl⟩
    rw [e]
    refine Reads.right (by simp only [List.append_assoc]; exact nodate h) (Reads.right ?_ (Reads.call ?_ ?_))
    · refine Fails.call_noWs (by simp only [List.append_assoc]; exact (publication_start h _).1) fun n => ?_
      rw [List.append_assoc]
      refine Fails.bind_of (reads_publication h) ?_
      rw [List.append_assoc]
      refine Fails.bind_of (a := some (.word m)) (Reads.opt_some (reads_ordinal (o := .word m) hm')) ?_
      exact Fails.bind (Fails.call_space (s := str!"hónap" ++ (((' ' :: o.text) ++ str!" napján") ++ rest))
          (noWs_cons (by decide)) fun _ => Fails.lit_head (by decide) (by simp))
    · simp only [List.append_assoc]; exact (publication_start h _).1
    · refine Reads.bind (reads_publication h) (Reads.bind (a := some m)
        (Reads.opt_some (Reads.call_space (ordinal_start hm' _).1 (reads_hungarianOrdinal hm'))) ?_)
      refine Reads.bind (a := ()) (Reads.tok_space (s := str!"hónap") (noWs_cons (by decide))) ?_
      exact Reads.bind (reads_ordinal (means_known hn)) (Reads.map (a := ()) (inMonth _ _))

/-! ### nothing else begins like the time -/

theorem fails_list_one {part : P β} {suffix : P Unit} {γ : Type} {g : List β → Unit → P γ} {t u : Str} (ht : NoWs (t ++ u))
    (hp : ∀ n, ∃ a, Reads part n t u a) (hb : Bad suffix u) (n : Nat) :
    Fails (listOf part >>= fun l => call suffix >>= g l) n (t ++ u) := by
  obtain ⟨a, ha⟩ := hp n
  have hl : Reads (listOf part) n t u [a] :=
    Reads.bind_last (Reads.call ht ha) (Reads.map (g := fun l => a :: l) (Reads.many_nil (Fails.bind (hb.1 _))))
  exact Fails.bind_of hl (Fails.bind (hb.2 _))

/-- A year and a month. -/
structure YearMonth (s : Str) : Prop where
  eq : ∃ (y : Nat) (m r : Str), m ∈ monthWords ∧ s = dec y ++ (str!"." ++ (' ' :: m ++ r))

theorem skip_month {m r : Str} (hm : m ∈ monthWords) : skipWs (' ' :: m ++ r) = m ++ r := by
  have : m ≠ [] := (by decide : ∀ m ∈ monthWords, m ≠ []) m hm
  have h := month_noWs hm []
  rw [List.append_nil] at h
  exact skipWs_word this h r

theorem bad_month {m r : Str} {suffix : P Unit} (hm : m ∈ monthWords) (hs : ∀ n, Fails suffix n (m ++ r)) :
    Bad suffix (' ' :: m ++ r) := by
  refine ⟨fun n => fails_listSeparator ?_, fun n => Fails.call fun n => ?_⟩
  · rw [skip_month hm]
    obtain ⟨c, hc, h1⟩ := monthWords_head m hm
    cases m with
    | nil => cases hc
    | cons d m => simp at hc; subst hc; exact .cons ⟨h1.2.2.1, h1.2.2.2.1, h1.2.2.2.2.1, h1.2.2.2.2.2.1, h1.2.2.2.2.2.2.1⟩
  · rw [skip_month hm]; exact hs n

theorem not_month {m r w : Str} (hm : m ∈ monthWords)
    (hw : w ∈ [str!"§", str!"§-", str!"pont", str!"alpont", str!"alcím", str!"számú ", str!"melléklet", str!"."]) : ¬ w <+: m ++ r := by
  have := (by decide +kernel : ∀ m ∈ monthWords, ∀ w ∈ [str!"§", str!"§-", str!"pont", str!"alpont", str!"alcím", str!"számú ", str!"melléklet", str!"."],
    ¬ w <+: m ∧ ¬ m <+: w) m hm w hw
  exact not_prefix_words this.1 this.2

theorem dot_noDash {n : Nat} {r : Str} : Fails (call dash) n (str!"." ++ r) :=
  fails_call_dash (by rw [show str!"." ++ r = '.' :: r from rfl, skipWs_cons (by decide)]; exact .cons (by decide))

theorem reads_dot {n : Nat} {r : Str} : Reads (tok str!".") n str!"." r () := Reads.tok (noWs_cons (by decide))

theorem reads_dotted_year {p : P Str} {k : Nat} {r : Str} (hp : ∀ n, Reads p n (dec k) (str!"." ++ r) (dec k)) (n : Nat) :
    ∃ a, Reads (dottedPart p) n (dec k ++ str!".") r a := by
  refine ⟨_, reads_part (i := .single (dec k)) (Reads.right ?_ (Reads.bind (Reads.call (noWs_dec _ _) (hp _)) (Reads.map reads_dot)))⟩
  rw [List.append_assoc]
  exact Fails.bind_of (Reads.call (noWs_dec _ _) (hp _)) (Fails.bind dot_noDash)

theorem reads_number_dot {n k : Nat} {r : Str} : Reads number n (dec k) (str!"." ++ r) (dec k) := reads_number (.cons (by decide))

theorem reads_article_year {k : Nat} {m r : Str} (hm : m ∈ monthWords) (n : Nat) :
    ∃ a, Reads articlePart n (dec k ++ str!".") (' ' :: m ++ r) a := by
  have hid : ∀ n, Reads (call articleId) n (dec k) (str!"." ++ (' ' :: m ++ r)) (dec k) := fun n =>
    Reads.call (noWs_dec _ _) (reads_articleNum (.cons (by decide)))
  have hsuf : ∀ n, Fails articleSuffix n (m ++ r) := fun n =>
    Fails.alt (Fails.bind (Fails.lit (not_month hm (by decide)))) (Fails.lit (not_month hm (by decide)))
  have : Reads (articleBook >>= fun book => (articleRange <|> articleSingle) >>= fun id =>
      pure fun p => (⟨book, id, p⟩ : ArticlePart)) n (dec k ++ str!".") (' ' :: m ++ r)
      (fun p => ⟨none, .single (dec k), p⟩) := by
    refine Reads.bind_first (Reads.opt_none ?_) ?_
    · rw [List.append_assoc]
      exact fails_book (fun _ _ _ h => h.bind) (.cons (by decide))
    · refine Reads.map (g := fun id p => (⟨none, id, p⟩ : ArticlePart)) (Reads.right ?_ (Reads.bind (hid _) (Reads.map reads_dot)))
      rw [List.append_assoc]
      refine Fails.bind_of (hid _) (Fails.bind_of (t := []) (a := none) (Reads.opt_none ?_) (Fails.bind dot_noDash))
      exact Fails.bind_of reads_dot (Fails.call fun n => by rw [skip_month hm]; exact hsuf n)
  exact ⟨_, Reads.positioned this⟩

theorem year_noLevel {k : Nat} {m r : Str} (hm : m ∈ monthWords) : NoLevel (dec k ++ (str!"." ++ (' ' :: m ++ r))) := by
  have hsk : skipWs (dec k ++ (str!"." ++ (' ' :: m ++ r))) = dec k ++ str!"." ++ (' ' :: m ++ r) := by
    rw [skipWs_noWs (noWs_dec _ _), List.append_assoc]
  have hws : NoWs (dec k ++ str!"." ++ (' ' :: m ++ r)) := by rw [List.append_assoc]; exact noWs_dec _ _
  have hpoint : ∀ n, Reads numericPointId n (dec k) (str!"." ++ (' ' :: m ++ r)) (dec k) := fun n => by
    refine Reads.slice (a := ()) (Reads.bind_last reads_number_dot (Reads.map (a := none) (Reads.opt_none ?_)))
    refine Fails.bind_of (t := []) (a := none) (Reads.opt_none (Fails.lit_head (by decide) (by simp))) (fails_suffixChar ?_)
    exact .cons (by decide)
  have hsuf : ∀ w ∈ [str!"pont", str!"alpont"], ∀ n, Fails (partSuffix w) n (m ++ r) := fun w hw n =>
    Fails.bind (Fails.lit (not_month hm (by
      simp only [List.mem_cons, List.not_mem_nil, or_false] at hw; rcases hw with rfl | rfl <;> decide)))
  refine ⟨?_, fun n => ?_, fun n => ?_, fun n => ?_, ?_⟩ <;> rw [hsk]
  · rw [List.append_assoc]
    exact Head.noBracket ((dec_start k _).mono fun c hc => by rintro rfl; cases hc)
  · refine fails_list_one hws (fun n => reads_article_year hm n) (bad_month hm fun n => ?_) n
    exact Fails.alt (Fails.bind (Fails.lit (not_month hm (by decide)))) (Fails.lit (not_month hm (by decide)))
  · exact fails_list_one hws (fun n => reads_dotted_year hpoint n) (bad_month hm (hsuf _ (by decide))) n
  · exact fails_list_one hws (fun n => reads_dotted_year (fun n => reads_number_dot) n) (bad_month hm (hsuf _ (by decide))) n
  · refine noMark_head ?_
    rw [List.append_assoc]
    exact (dec_start k _).mono fun c hc => by
      rw [Bool.eq_false_iff]; intro hl
      rw [(Other.of_lower hl).digit] at hc; cases hc

theorem NoLevel.space {s : Str} (h : NoLevel s) : NoLevel (' ' :: s) := by
  have e : skipWs (' ' :: s) = skipWs s := rfl
  exact ⟨by rw [e]; exact h.paragraph, by rw [e]; exact h.article, by rw [e]; exact h.numericPoint,
    by rw [e]; exact h.numericSubpoint, by rw [e]; exact h.letters⟩

/-- How the time begins. -/
inductive TimeStart (s : Str) : Prop
  | year (y : Nat) (m r : Str) (hm : m ∈ monthWords) (e : s = dec y ++ (str!"." ++ (' ' :: m ++ r)))
  | published (p r : Str) (hp : p ∈ publications) (e : s = p ++ (str!" k" ++ r))

theorem time_start {t : WhenText} {e : EnforcementDateType} (ht : t.Means e) (R : Str) : TimeStart (t.text ++ R) := by
  cases ht with
  | @day d hd => exact .year d.year d.month (str!" " ++ dec d.day ++ d.ending ++ R) hd.month (by simp [WhenText.text, DayText.text])
  | @nextDay p h => exact .published p (str!"övető napon" ++ R) h (by simp [WhenText.text])
  | @days p o k h hn => exact .published p (str!"övető " ++ o.text ++ str!" napon" ++ R) h (by simp [WhenText.text])
  | @dayInNext p o k h hn => exact .published p (str!"övető hónap " ++ o.text ++ str!" napján" ++ R) h (by simp [WhenText.text])
  | @dayInMonth p m o j k h hm hn =>
    exact .published p (str!"övető " ++ m ++ str!" hónap " ++ o.text ++ str!" napján" ++ R) h (by simp [WhenText.text])

/-- What is common in the first characters of the time. -/
structure TimeChar (c : Char) : Prop where
  ws : isWs c = false
  paragraph : c ≠ '('
  close : c ≠ ')'
  dash : isDashChar c = false
  quote : c ≠ '„'
  sep : c ≠ ',' ∧ c ≠ ';' ∧ c ≠ 'é' ∧ c ≠ 'v' ∧ c ≠ 'i' ∧ c ≠ 'a'
  upper : isHunUpper c = false
  roman : isRomanChar c = false

theorem timeChar_digit {c : Char} (h : isDigit c = true) : TimeChar c := by
  rw [isDigit_iff] at h
  have hall : ∀ k ∈ List.range 10, TimeChar (Char.ofNat (48 + k)) := by
    intro k hk
    have := (by decide +kernel : ∀ k ∈ List.range 10, isWs (Char.ofNat (48 + k)) = false ∧ Char.ofNat (48 + k) ∉ str!"()„,;évia" ∧
      isDashChar (Char.ofNat (48 + k)) = false ∧ isHunUpper (Char.ofNat (48 + k)) = false ∧ isRomanChar (Char.ofNat (48 + k)) = false) k hk
    obtain ⟨h1, h2, h3, h4, h5⟩ := this
    simp only [List.mem_cons, List.not_mem_nil, or_false, not_or] at h2
    exact ⟨h1, h2.1, h2.2.1, h3, h2.2.2.1, h2.2.2.2, h4, h5⟩
  have := hall (c.toNat - 48) (List.mem_range.2 (by omega))
  rwa [show 48 + (c.toNat - 48) = c.toNat by omega, Char.ofNat_toNat] at this

theorem timeStart_head {s : Str} (h : TimeStart s) : ∃ c r, s = c :: r ∧ TimeChar c := by
  cases h with
  | year y m r hm e =>
    obtain ⟨c, t, h1, h2⟩ := dec_head y (str!"." ++ (' ' :: m ++ r))
    exact ⟨c, t, e.trans h1, timeChar_digit h2⟩
  | published p r hp e =>
    have : p.head? = some 'k' ∨ p.head? = some 'e' := (by decide : ∀ p ∈ publications, p.head? = some 'k' ∨ p.head? = some 'e') p hp
    cases p with
    | nil => rcases this with h | h <;> cases h
    | cons c p =>
      refine ⟨c, _, e, ?_⟩
      rcases this with h | h <;> cases h <;>
        exact ⟨by decide, by decide, by decide, by decide, by decide, by decide, by decide, by decide⟩

theorem timeStart_noLevel {s : Str} (h : TimeStart s) : NoLevel s := by
  cases h with
  | year y m r hm e => rw [e]; exact year_noLevel hm
  | published p r hp e =>
    have hs := publication_start hp (str!" k" ++ r)
    obtain ⟨c, t, e2, hc⟩ := timeStart_head (.published p r hp e)
    have hsk : skipWs s = s := by rw [e2]; exact skipWs_cons hc.ws
    refine .of_head (by rw [hsk, e2]; exact .cons hc.paragraph) (by rw [hsk, e]; exact hs.2) ?_
    rw [hsk, e]
    refine noMark_text ?_ (.inr ?_) (.cons (by decide))
    · exact (by decide : ∀ p ∈ publications, ∀ c ∈ p, c ≠ ')' ∧ isDashChar c = false) p hp
    · exact (by decide : ∀ p ∈ publications, ∃ c ∈ p, lowerAz c = false) p hp

def nounArticles : List Str := [[], str!"a ", str!"az "]

theorem time_noLevel {a s : Str} (ha : a ∈ nounArticles) (h : TimeStart s) : NoLevel (a ++ s) := by
  simp only [nounArticles, List.mem_cons, List.not_mem_nil, or_false] at ha
  obtain ⟨c, r, e, hc⟩ := timeStart_head h
  have hy : Head (fun c => c ≠ ')' ∧ isDashChar c = false) (skipWs s) := by
    rw [e, skipWs_cons hc.ws]; exact .cons ⟨hc.close, hc.dash⟩
  rcases ha with rfl | rfl | rfl
  · exact timeStart_noLevel h
  · refine .of_head (.cons (by decide)) (.cons (by decide)) ?_
    exact noMark_text (x := str!"a ") (by decide) (.inr ⟨' ', by decide, by decide⟩) hy
  · refine .of_head (.cons (by decide)) (.cons (by decide)) ?_
    exact noMark_text (x := str!"az ") (by decide) (.inr ⟨' ', by decide, by decide⟩) hy

theorem time_after {a s : Str} (ha : a ∈ nounArticles) (h : TimeStart s) : After (' ' :: (a ++ s)) := by
  refine ⟨⟨.cons (by decide), ?_⟩, (time_noLevel ha h).space⟩
  obtain ⟨c, r, e, hc⟩ := timeStart_head h
  simp only [nounArticles, List.mem_cons, List.not_mem_nil, or_false] at ha
  rcases ha with rfl | rfl | rfl
  · rw [show skipWs (' ' :: ([] ++ s)) = skipWs s from rfl, e, skipWs_cons hc.ws]; exact .cons hc.dash
  · exact .cons (by decide)
  · exact .cons (by decide)

end HunLaw.Grammar
