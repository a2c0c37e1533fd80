import Verif.Lemmas.Abbreviations
import Verif.Spec.Announced
import Verif.Model.SemanticInfo

/-! The words of the special phrases. -/

set_option autoImplicit false

namespace HunLaw.Grammar

open HunLaw P Spec

variable {α β : Type}

theorem isWs_iff {c : Char} : P.isWs c = true ↔ c ∈ [' ', '\t', '\n', '\r', '\x0c'] := by
  simp [P.isWs, or_assoc]

theorem spaced_one {w a : Str} (ha : OnlyWs a) : Spaced [w] (a ++ w) := ⟨a, [], ha, by simp, rfl⟩

theorem spaced_append {l m : List Str} {s t : Str} (hs : Spaced l s) (ht : Spaced m t) : Spaced (l ++ m) (s ++ t) := by
  induction l generalizing s with
  | nil => rw [show s = [] from hs]; exact ht
  | cons w l ih =>
    obtain ⟨a, r, ha, rfl, hr⟩ := hs
    exact ⟨a, r ++ t, ha, by simp, ih hr⟩

theorem spaced_blank {l : List Str} {s a : Str} (hl : l ≠ []) (ha : OnlyWs a) (hs : Spaced l s) : Spaced l (a ++ s) := by
  cases l with
  | nil => exact absurd rfl hl
  | cons w l =>
    obtain ⟨b, r, hb, rfl, hr⟩ := hs
    refine ⟨a ++ b, r, ?_, by simp, hr⟩
    intro c hc
    rcases List.mem_append.1 hc with h | h
    · exact ha c h
    · exact hb c h

/-! ### What a parser takes -/

/-- What is taken by a parser has the property. -/
def Takes (p : P α) (L : α → Str → Prop) : Prop :=
  ∀ i a j, p.run i = some (a, j) → ∃ t, i.rest = t ++ j.rest ∧ L a t

def TakesS (p : PS α) (L : α → Str → Prop) : Prop :=
  ∀ i s a j s', p.run i s = (some (a, j), s') → ∃ t, i.rest = t ++ j.rest ∧ L a t

namespace Takes

theorem any (p : P α) : Takes p fun _ _ => True := fun i a j h => by
  obtain ⟨c, hc, -⟩ := p.adv i a j h
  exact ⟨c, hc, trivial⟩

theorem mono {p : P α} {L M : α → Str → Prop} (h : Takes p L) (hm : ∀ a t, L a t → M a t) : Takes p M :=
  fun i a j hr => by
    obtain ⟨t, e, ht⟩ := h i a j hr
    exact ⟨t, e, hm _ _ ht⟩

theorem pure (a : α) : Takes (Pure.pure a) fun b t => b = a ∧ t = [] := fun i b j h => by
  obtain ⟨rfl, rfl⟩ := P.run_pure.1 h
  exact ⟨[], rfl, rfl, rfl⟩

theorem bind {p : P α} {f : α → P β} {L : α → Str → Prop} {M : α → β → Str → Prop} (hp : Takes p L)
    (hf : ∀ a, Takes (f a) (M a)) : Takes (p >>= f) fun b t => ∃ a u v, t = u ++ v ∧ L a u ∧ M a b v :=
  fun i b j h => by
    obtain ⟨a, k, h1, h2⟩ := P.run_bind.1 h
    obtain ⟨u, e, hu⟩ := hp _ _ _ h1
    obtain ⟨v, e', hv⟩ := hf _ _ _ _ h2
    exact ⟨u ++ v, by rw [e, e', List.append_assoc], a, u, v, rfl, hu, hv⟩

theorem alt {p q : P α} {L : α → Str → Prop} (hp : Takes p L) (hq : Takes q L) : Takes (p <|> q) L :=
  fun i a j h => by
    rcases P.run_alt h with h | h
    · exact hp _ _ _ h
    · exact hq _ _ _ h

theorem both {p : P α} {L M : α → Str → Prop} (h1 : Takes p L) (h2 : Takes p M) : Takes p fun a t => L a t ∧ M a t :=
  fun i a j h => by
    obtain ⟨t, e, ht⟩ := h1 _ _ _ h
    obtain ⟨u, e', hu⟩ := h2 _ _ _ h
    have : t = u := List.append_cancel_right (e.symm.trans e')
    subst this
    exact ⟨t, e, ht, hu⟩

theorem lit (w : Str) : Takes (P.lit w) fun _ t => t = w := fun i a j h => ⟨w, (run_lit h).1, rfl⟩

theorem call {p : P α} {L : α → Str → Prop} (h : Takes p L) :
    Takes (P.call p) fun a t => ∃ b u, OnlyWs b ∧ t = b ++ u ∧ L a u := fun i a j hr => by
  obtain ⟨_, k, h1, h2⟩ := P.run_bind.1 hr
  obtain ⟨e, -⟩ := run_ws h1
  obtain ⟨t, e', ht⟩ := h _ _ _ h2
  exact ⟨_ ++ t, by rw [List.append_assoc, ← e']; exact e, _, t, fun c hc => isWs_iff.1 (mem_takeWhile_imp hc), rfl, ht⟩

theorem lits (l : List Str) : Takes (P.lits l) fun _ t => t ∈ l := by
  induction l with
  | nil => intro i a j h; simp [P.lits] at h
  | cons w l ih =>
    exact Takes.alt ((Takes.lit w).mono fun _ t h => by simp [h]) (ih.mono fun _ t h => List.mem_cons_of_mem _ h)

theorem toks (l : List Str) : Takes (P.toks l) fun _ t => ∃ w ∈ l, Spaced [w] t :=
  (Takes.lits l).call.mono fun _ t ⟨b, u, hb, e, hu⟩ => ⟨u, hu, e ▸ spaced_one hb⟩

theorem tok (w : Str) : Takes (P.tok w) fun _ t => Spaced [w] t :=
  (Takes.lit w).call.mono fun _ t ⟨b, u, hb, e, hu⟩ => e ▸ hu ▸ spaced_one hb

theorem opt {p : P α} {L : α → Str → Prop} (h : Takes p L) :
    Takes (P.opt p) fun a t => (∃ b, a = some b ∧ L b t) ∨ (a = none ∧ t = []) := fun i a j hr => by
  rcases P.run_opt hr with ⟨b, rfl, hr'⟩ | ⟨rfl, rfl⟩
  · obtain ⟨t, e, ht⟩ := h _ _ _ hr'
    exact ⟨t, e, .inl ⟨b, rfl, ht⟩⟩
  · exact ⟨[], rfl, .inr ⟨rfl, rfl⟩⟩

end Takes

namespace TakesS

theorem any (p : PS α) : TakesS p fun _ _ => True := fun i s a j s' h => by
  obtain ⟨c, hc, -⟩ := p.adv i s a j s' h
  exact ⟨c, hc, trivial⟩

theorem mono {p : PS α} {L M : α → Str → Prop} (h : TakesS p L) (hm : ∀ a t, L a t → M a t) : TakesS p M :=
  fun i s a j s' hr => by
    obtain ⟨t, e, ht⟩ := h i s a j s' hr
    exact ⟨t, e, hm _ _ ht⟩

theorem pure (a : α) : TakesS (Pure.pure a) fun b t => b = a ∧ t = [] := fun i s b j s' h => by
  obtain ⟨rfl, rfl, rfl⟩ := PS.run_pure.1 h
  exact ⟨[], rfl, rfl, rfl⟩

theorem lift {p : P α} {L : α → Str → Prop} (h : Takes p L) : TakesS (PS.lift p) L := fun i s a j s' hr => by
  obtain ⟨hr', rfl⟩ := PS.run_lift.1 hr
  exact h _ _ _ hr'

theorem bind {p : PS α} {f : α → PS β} {L : α → Str → Prop} {M : α → β → Str → Prop} (hp : TakesS p L)
    (hf : ∀ a, TakesS (f a) (M a)) : TakesS (p >>= f) fun b t => ∃ a u v, t = u ++ v ∧ L a u ∧ M a b v :=
  fun i s b j s' h => by
    obtain ⟨a, k, u', h1, h2⟩ := PS.run_bind.1 h
    obtain ⟨u, e, hu⟩ := hp _ _ _ _ _ h1
    obtain ⟨v, e', hv⟩ := hf _ _ _ _ _ _ h2
    exact ⟨u ++ v, by rw [e, e', List.append_assoc], a, u, v, rfl, hu, hv⟩

theorem alt {p q : PS α} {L : α → Str → Prop} (hp : TakesS p L) (hq : TakesS q L) : TakesS (p <|> q) L :=
  fun i s a j s' h => by
    rcases PS.run_alt h with h | ⟨_, -, h⟩
    · exact hp _ _ _ _ _ h
    · exact hq _ _ _ _ _ h

theorem both {p : PS α} {L M : α → Str → Prop} (h1 : TakesS p L) (h2 : TakesS p M) :
    TakesS p fun a t => L a t ∧ M a t := fun i s a j s' h => by
  obtain ⟨t, e, ht⟩ := h1 _ _ _ _ _ h
  obtain ⟨u, e', hu⟩ := h2 _ _ _ _ _ h
  have : t = u := List.append_cancel_right (e.symm.trans e')
  subst this
  exact ⟨t, e, ht, hu⟩

end TakesS

/-! ### Beginnings and ends -/

theorem beginsWith_append {l : List (List Str)} {s t : Str} (h : BeginsWith l s) : BeginsWith l (s ++ t) := by
  obtain ⟨e, he, a, r, ha, rfl⟩ := h
  exact ⟨e, he, a, r ++ t, ha, by simp⟩

theorem contains_append_left {l : List (List Str)} {s t : Str} (h : Contains l s) : Contains l (t ++ s) := by
  obtain ⟨e, he, b, a, r, ha, rfl⟩ := h
  exact ⟨e, he, t ++ b, a, r, ha, by simp⟩

theorem contains_append_right {l : List (List Str)} {s t : Str} (h : Contains l s) : Contains l (s ++ t) := by
  obtain ⟨e, he, b, a, r, ha, rfl⟩ := h
  exact ⟨e, he, b, a, r ++ t, ha, by simp⟩

theorem endsWith_append {l : List (List Str)} {s t : Str} (h : EndsWith l s) : EndsWith l (t ++ s) := by
  obtain ⟨e, he, b, a, r, ha, hr, rfl⟩ := h
  exact ⟨e, he, t ++ b, a, r, ha, hr, by simp⟩

theorem endsWith_contains {l : List (List Str)} {s : Str} (h : EndsWith l s) : Contains l s := by
  obtain ⟨e, he, b, a, r, ha, hr, rfl⟩ := h
  exact ⟨e, he, b, a, r, ha, rfl⟩

theorem endsWith_mono {l m : List (List Str)} {s : Str} (hlm : ∀ e ∈ l, e ∈ m) (h : EndsWith l s) : EndsWith m s := by
  obtain ⟨e, he, h⟩ := h
  exact ⟨e, hlm e he, h⟩

theorem contains_mono {l m : List (List Str)} {s : Str} (hlm : ∀ e ∈ l, e ∈ m) (h : Contains l s) : Contains m s := by
  obtain ⟨e, he, h⟩ := h
  exact ⟨e, hlm e he, h⟩

theorem spaced_ends {l : List (List Str)} {e : List Str} {t : Str} (he : e ∈ l) (h : Spaced e t) : EndsWith l t :=
  ⟨e, he, [], t, [], h, by simp [OnlyWs], by simp⟩

/-- Words after the words at the end. -/
theorem endsWith_then {l : List (List Str)} {s t : Str} {m : List Str} (hm : m ≠ []) (h : EndsWith l s) (ht : Spaced m t) :
    EndsWith (l.map (· ++ m)) (s ++ t) := by
  obtain ⟨e, he, b, a, r, ha, hr, rfl⟩ := h
  refine ⟨e ++ m, List.mem_map.2 ⟨e, he, rfl⟩, b, a ++ (r ++ t), [], spaced_append ha (spaced_blank hm hr ht), by simp [OnlyWs], ?_⟩
  simp

theorem Takes.ends_right {p : P α} {f : α → P β} {l : List (List Str)} (hf : ∀ a, Takes (f a) fun _ t => EndsWith l t) :
    Takes (p >>= f) fun _ t => EndsWith l t :=
  (Takes.bind (Takes.any p) hf).mono fun b t ⟨_, u, v, e, _, hv⟩ => e ▸ endsWith_append hv

theorem Takes.ends_call {p : P α} {l : List (List Str)} (h : Takes p fun _ t => EndsWith l t) :
    Takes (P.call p) fun _ t => EndsWith l t :=
  h.call.mono fun _ t ⟨b, u, _, e, hu⟩ => e ▸ endsWith_append hu

theorem Takes.ends_toks {l : List Str} {m : List (List Str)} (h : ∀ w ∈ l, [w] ∈ m) :
    Takes (P.toks l) fun _ t => EndsWith m t :=
  (Takes.toks l).mono fun _ t ⟨w, hw, ht⟩ => spaced_ends (h w hw) ht

theorem Takes.ends_tok {w : Str} {m : List (List Str)} (h : [w] ∈ m) : Takes (P.tok w) fun _ t => EndsWith m t :=
  (Takes.tok w).mono fun _ t ht => spaced_ends h ht

theorem takes_az : Takes az fun _ t => t = str!"a " ∨ t = str!"az " := by
  refine (Takes.bind (Takes.lit _) fun _ => Takes.bind (Takes.opt (Takes.lit _)) fun _ => Takes.lit _).mono ?_
  rintro _ t ⟨_, u, v, rfl, rfl, _, v, w, rfl, ⟨_, _, rfl⟩ | ⟨_, rfl⟩, rfl⟩
  · exact .inr rfl
  · exact .inl rfl

theorem takes_azUpper : Takes azUpper fun _ t => t = str!"A " ∨ t = str!"Az " := by
  refine (Takes.bind (Takes.lit _) fun _ => Takes.bind (Takes.opt (Takes.lit _)) fun _ => Takes.lit _).mono ?_
  rintro _ t ⟨_, u, v, rfl, rfl, _, v, w, rfl, ⟨_, _, rfl⟩ | ⟨_, rfl⟩, rfl⟩
  · exact .inr rfl
  · exact .inl rfl

theorem takes_azAny : Takes (P.call azAny) fun _ t => BeginsWith definiteArticles t := by
  refine (Takes.alt (L := fun _ t => [t] ∈ definiteArticles) (takes_az.mono ?_) (takes_azUpper.mono ?_)).call.mono ?_
  · rintro _ t (rfl | rfl) <;> decide
  · rintro _ t (rfl | rfl) <;> decide
  · rintro _ t ⟨b, u, hb, rfl, hu⟩
    exact ⟨_, hu, b ++ u, [], spaced_one hb, by simp⟩

/-! ### Block amendments -/

theorem takes_amendmentSuffix : Takes amendmentSuffix fun _ t => EndsWith replacingWords t := by
  refine Takes.alt ?_ (Takes.alt ?_ ?_)
  · exact .ends_right fun _ => .ends_right fun _ => .ends_toks (by decide)
  · exact .ends_right fun _ => .ends_tok (by decide)
  · exact .ends_right fun _ => .ends_tok (by decide)

theorem takes_amendmentSuffixWithSubtitle :
    Takes amendmentSuffixWithSubtitle fun _ t => EndsWith replacingHeadingWords t := by
  exact .ends_right fun _ => .ends_right fun _ => .ends_right fun _ => .ends_right fun _ => .ends_right fun _ =>
    .ends_right fun _ => .ends_toks (by decide)

theorem takes_amendmentSuffixWithStructural :
    Takes amendmentSuffixWithStructural fun _ t => EndsWith replacingHeadingWords t :=
  .ends_right fun _ => .ends_right fun _ => .ends_right fun _ => .ends_tok (by decide)

theorem takes_insertionSuffix : Takes insertionSuffix fun _ t => EndsWith insertingWords t := .ends_toks (by decide)

/-- Words and a colon. -/
theorem takes_colon {p : P α} {x : β} {l : List (List Str)} (h : Takes p fun _ t => EndsWith l t) :
    Takes (P.call p >>= fun _ => P.tok str!":" >>= fun _ => Pure.pure x)
      fun y t => y = x ∧ Contains l t ∧ EndsWith (colon l) t := by
  refine (Takes.bind h.ends_call fun _ => Takes.bind (Takes.tok _) fun _ => Takes.pure x).mono ?_
  rintro y t ⟨_, u, v, rfl, hu, _, v, w, rfl, hv, rfl, rfl⟩
  refine ⟨rfl, contains_append_right (endsWith_contains hu), ?_⟩
  rw [List.append_nil]
  exact endsWith_then (by simp) hu hv

theorem takesS_colon {p : P α} {x : β} {l : List (List Str)} (h : Takes p fun _ t => EndsWith l t) :
    TakesS (PS.lift (P.call p) >>= fun _ => PS.lift (P.tok str!":") >>= fun _ => Pure.pure x)
      fun y t => y = x ∧ Contains l t ∧ EndsWith (colon l) t := by
  refine (TakesS.bind (TakesS.lift h.ends_call) fun _ => TakesS.bind (TakesS.lift (Takes.tok _)) fun _ => TakesS.pure x).mono ?_
  rintro y t ⟨_, u, v, rfl, hu, _, v, w, rfl, hv, rfl, rfl⟩
  refine ⟨rfl, contains_append_right (endsWith_contains hu), ?_⟩
  rw [List.append_nil]
  exact endsWith_then (by simp) hu hv

/-- The words at the end of a block amendment. -/
def BlockEnd (replacing : List (List Str)) (insertion : Bool) (t : Str) : Prop :=
  if insertion then EndsWith (colon insertingWords) t
  else Contains replacing t ∧ EndsWith (colon (replacing ++ insertingWords)) t

theorem blockEnd_append {l : List (List Str)} {ins : Bool} {s t : Str} (h : BlockEnd l ins t) : BlockEnd l ins (s ++ t) := by
  unfold BlockEnd at h ⊢
  split at h
  · rename_i hi; rw [if_pos hi]; exact endsWith_append h
  · rename_i hi; rw [if_neg hi]; exact ⟨contains_append_left h.1, endsWith_append h.2⟩

theorem colon_mono {l m : List (List Str)} (h : ∀ e ∈ l, e ∈ m) : ∀ e ∈ colon l, e ∈ colon m := by
  intro e he
  obtain ⟨f, hf, rfl⟩ := List.mem_map.1 he
  exact List.mem_map.2 ⟨f, h f hf, rfl⟩

theorem takes_right {p : P α} {f : α → P β} {L : β → Str → Prop} (hL : ∀ b s t, L b t → L b (s ++ t))
    (hf : ∀ a, Takes (f a) L) : Takes (p >>= f) L :=
  (Takes.bind (Takes.any p) hf).mono fun b _ ⟨_, u, v, e, _, hv⟩ => e ▸ hL b u v hv

theorem takesS_right {p : PS α} {f : α → PS β} {L : β → Str → Prop} (hL : ∀ b s t, L b t → L b (s ++ t))
    (hf : ∀ a, TakesS (f a) L) : TakesS (p >>= f) L :=
  (TakesS.bind (TakesS.any p) hf).mono fun b _ ⟨_, u, v, e, _, hv⟩ => e ▸ hL b u v hv

theorem blockEnd_replacing {l m : List (List Str)} (hlm : ∀ e ∈ l, e ∈ m) {t : Str}
    (h : Contains l t ∧ EndsWith (colon l) t) : BlockEnd m false t :=
  ⟨contains_mono hlm h.1, endsWith_mono (colon_mono fun e he => List.mem_append_left _ (hlm e he)) h.2⟩

theorem blockEnd_inserting {m : List (List Str)} {t : Str} (h : EndsWith (colon insertingWords) t) : BlockEnd m true t := h

theorem takesS_amended :
    TakesS (amendedOnly <|> insertedOnly <|> amendedAndInserted) fun r t => BlockEnd replacingWords r.1.isNone t := by
  refine TakesS.alt ?_ (TakesS.alt ?_ ?_)
  · refine takesS_right (fun _ _ _ => blockEnd_append) fun r => ?_
    refine (takesS_colon takes_amendmentSuffix).mono ?_
    rintro _ t ⟨rfl, h⟩
    exact blockEnd_replacing (fun _ h => h) h
  · refine takesS_right (fun _ _ _ => blockEnd_append) fun r => ?_
    refine (takesS_colon takes_insertionSuffix).mono ?_
    rintro _ t ⟨rfl, h⟩
    exact blockEnd_inserting h.2
  · refine takesS_right (fun _ _ _ => blockEnd_append) fun r => ?_
    refine (TakesS.bind (TakesS.lift takes_amendmentSuffix.ends_call)
      (M := fun _ y t => y.1 = some r ∧ EndsWith (colon insertingWords) t) fun _ => ?_).mono ?_
    · have hL : ∀ (b : Option Reference × Option InsertionReference) (s t : Str),
          b.1 = some r ∧ EndsWith (colon insertingWords) t → b.1 = some r ∧ EndsWith (colon insertingWords) (s ++ t) :=
        fun b s t h => ⟨h.1, endsWith_append h.2⟩
      refine takesS_right hL fun _ => takesS_right hL fun _ => takesS_right hL fun _ => takesS_right hL fun _ =>
        takesS_right hL fun x => ?_
      refine (takesS_colon takes_insertionSuffix).mono ?_
      rintro _ t ⟨rfl, h⟩
      exact ⟨rfl, h.2⟩
    · rintro y t ⟨_, u, v, rfl, hu, h1, h2⟩
      rw [h1]
      exact ⟨contains_append_right (endsWith_contains hu),
        endsWith_append (endsWith_mono (colon_mono fun e he => List.mem_append_right _ he) h2)⟩

/-- A text which begins with an article. -/
theorem takesS_article {p : PS α} {L : α → Str → Prop} (hp : TakesS p L) (hL : ∀ b s t, L b t → L b (s ++ t)) :
    TakesS (PS.lift (P.call azAny) >>= fun _ => p) fun a t => BeginsWith definiteArticles t ∧ L a t :=
  (TakesS.bind (TakesS.lift takes_azAny) fun _ => hp).mono fun b _ ⟨_, u, v, e, hu, hv⟩ =>
    e ▸ ⟨beginsWith_append hu, hL b u v hv⟩

theorem takesS_map {p : PS α} {f : α → β} {L : β → Str → Prop} (hp : TakesS p fun a t => L (f a) t) :
    TakesS (p >>= fun a => Pure.pure (f a)) L :=
  (TakesS.bind hp fun a => TakesS.pure (f a)).mono fun b _ ⟨a, u, v, e, hu, hb, hv⟩ => by
    rw [hv, List.append_nil] at e
    rw [e, hb]; exact hu

theorem takesS_blockAmendment : TakesS blockAmendment fun x t =>
    BeginsWith definiteArticles t ∧ BlockEnd replacingWords x.amended.isNone t := by
  have hL : ∀ (b : BlockAmendment) (s t : Str), BlockEnd replacingWords b.amended.isNone t →
    BlockEnd replacingWords b.amended.isNone (s ++ t) := fun _ _ _ => blockEnd_append
  refine takesS_article (L := fun (x : BlockAmendment) t => BlockEnd replacingWords x.amended.isNone t) ?_ hL
  refine takesS_right hL fun _ => takesS_right hL fun _ => ?_
  exact takesS_map (L := fun (x : BlockAmendment) t => BlockEnd replacingWords x.amended.isNone t) takesS_amended

theorem takes_subtitleAmendment : Takes subtitleAmendment fun r t => BlockEnd replacingHeadingWords r.2 t := by
  have hL : ∀ (b : ReferenceWithSubtitle × Bool) (s t : Str), BlockEnd replacingHeadingWords b.2 t →
    BlockEnd replacingHeadingWords b.2 (s ++ t) := fun _ _ _ => blockEnd_append
  refine Takes.alt ?_ (Takes.alt ?_ ?_)
  · refine takes_right hL fun r => (takes_colon takes_amendmentSuffix).mono ?_
    rintro _ t ⟨rfl, h⟩
    exact blockEnd_replacing (fun _ h => List.mem_append_left _ h) h
  · refine takes_right hL fun r => (takes_colon takes_amendmentSuffixWithSubtitle).mono ?_
    rintro _ t ⟨rfl, h⟩
    exact blockEnd_replacing (fun _ h => h) h
  · refine takes_right hL fun _ => takes_right hL fun r => (takes_colon takes_insertionSuffix).mono ?_
    rintro _ t ⟨rfl, h⟩
    exact blockEnd_inserting h.2

theorem takesS_blockAmendmentWithSubtitle : TakesS blockAmendmentWithSubtitle fun x t =>
    BeginsWith definiteArticles t ∧ BlockEnd replacingHeadingWords x.isInsertion t := by
  have hL : ∀ (b : BlockAmendmentWithSubtitle) (s t : Str), BlockEnd replacingHeadingWords b.isInsertion t →
    BlockEnd replacingHeadingWords b.isInsertion (s ++ t) := fun _ _ _ => blockEnd_append
  refine takesS_article (L := fun (x : BlockAmendmentWithSubtitle) t => BlockEnd replacingHeadingWords x.isInsertion t) ?_ hL
  refine takesS_right hL fun _ => takesS_right hL fun _ => takesS_right hL fun _ => ?_
  exact takesS_map (L := fun (x : BlockAmendmentWithSubtitle) t => BlockEnd replacingHeadingWords x.isInsertion t) (TakesS.lift takes_subtitleAmendment)

theorem takes_structuralSuffix {x : β} : Takes (structuralSuffix >>= fun _ => Pure.pure x)
    fun y t => y = x ∧ Contains replacingHeadingWords t ∧ EndsWith (colon replacingHeadingWords) t := by
  have h1 : Takes (P.call amendmentSuffix <|> P.call amendmentSuffixWithStructural) fun _ t => EndsWith replacingHeadingWords t :=
    Takes.alt (takes_amendmentSuffix.ends_call.mono fun _ _ => endsWith_mono fun _ h => List.mem_append_left _ h)
      takes_amendmentSuffixWithStructural.ends_call
  refine (Takes.bind (Takes.bind h1 fun _ => Takes.tok _) fun _ => Takes.pure x).mono ?_
  rintro y t ⟨_, u, v, rfl, ⟨_, u, w, rfl, hu, hw⟩, rfl, rfl⟩
  rw [List.append_nil]
  exact ⟨rfl, contains_append_right (endsWith_contains hu), endsWith_then (by simp) hu hw⟩

theorem takes_structuralAmendment : Takes structuralAmendment fun r t => BlockEnd replacingHeadingWords r.2.2.2 t := by
  have hL : ∀ (b : Option StructuralReference × StructuralReference × Option Str × Bool) (s t : Str),
    BlockEnd replacingHeadingWords b.2.2.2 t → BlockEnd replacingHeadingWords b.2.2.2 (s ++ t) := fun _ _ _ => blockEnd_append
  refine Takes.alt ?_ (Takes.alt ?_ (Takes.alt ?_ ?_))
  · refine takes_right hL fun _ => takes_right hL fun _ => takes_structuralSuffix.mono ?_
    rintro _ t ⟨rfl, h⟩
    exact blockEnd_replacing (fun _ h => h) h
  · refine takes_right hL fun _ => takes_structuralSuffix.mono ?_
    rintro _ t ⟨rfl, h⟩
    exact blockEnd_replacing (fun _ h => h) h
  · refine takes_right hL fun _ => takes_right hL fun _ => takes_right hL fun _ => (takes_colon takes_insertionSuffix).mono ?_
    rintro _ t ⟨rfl, h⟩
    exact blockEnd_inserting h.2
  · refine takes_right hL fun _ => takes_right hL fun _ => takes_right hL fun _ => (takes_colon takes_insertionSuffix).mono ?_
    rintro _ t ⟨rfl, h⟩
    exact blockEnd_inserting h.2

theorem takesS_blockAmendmentStructural : TakesS blockAmendmentStructural fun x t =>
    BeginsWith definiteArticles t ∧ BlockEnd replacingHeadingWords x.isInsertion t := by
  have hL : ∀ (b : BlockAmendmentStructural) (s t : Str), BlockEnd replacingHeadingWords b.isInsertion t →
    BlockEnd replacingHeadingWords b.isInsertion (s ++ t) := fun _ _ _ => blockEnd_append
  refine takesS_article (L := fun (x : BlockAmendmentStructural) t => BlockEnd replacingHeadingWords x.isInsertion t) ?_ hL
  refine takesS_right hL fun _ => takesS_right hL fun _ => ?_
  exact takesS_map (L := fun (x : BlockAmendmentStructural) t => BlockEnd replacingHeadingWords x.isInsertion t) (TakesS.lift takes_structuralAmendment)

/-! ### Enforcement dates -/

theorem takes_enforcementSubject : Takes enforcementSubject fun _ t =>
    BeginsWith [[str!"Ez a", str!"törvény"], [str!"E", str!"törvény"], [str!"A "], [str!"Az "]] t := by
  refine Takes.alt ?_ ?_
  · refine (Takes.bind (Takes.toks _) fun _ => Takes.tok _).mono ?_
    rintro _ t ⟨_, u, v, rfl, ⟨w, hw, hu⟩, hv⟩
    refine ⟨[w, str!"törvény"], ?_, u ++ v, [], spaced_append hu hv, by simp⟩
    simp only [List.mem_cons, List.not_mem_nil, or_false] at hw
    rcases hw with rfl | rfl <;> decide
  · refine takes_azUpper.call.mono ?_
    rintro _ t ⟨b, u, hb, rfl, hu⟩
    refine ⟨[u], ?_, b ++ u, [], spaced_one hb, by simp⟩
    rcases hu with rfl | rfl <;> decide

theorem takes_inlineRepeal : Takes inlineRepeal fun _ t => EndsWith [[str!"hatályát veszti"]] t := by
  refine .ends_right fun _ => .ends_right fun _ => .ends_right fun _ => .ends_right fun _ => .ends_right fun _ => ?_
  refine (Takes.bind (Takes.tok _) fun _ => Takes.pure _).mono ?_
  rintro _ t ⟨_, u, v, rfl, hu, rfl, rfl⟩
  rw [List.append_nil]
  exact spaced_ends (by simp) hu

/-- The words at the end of an enforcement date. -/
def DateEnd (x : GEnforcementDate) (t : Str) : Prop :=
  Contains [[str!"lép hatályba"]] t ∧
    if x.inlineRepeal = none then EndsWith [[str!"lép hatályba", str!"."]] t
    else EndsWith [[str!"hatályát veszti", str!"."]] t

theorem dateEnd_append {x : GEnforcementDate} {s t : Str} (h : DateEnd x t) : DateEnd x (s ++ t) := by
  refine ⟨contains_append_left h.1, ?_⟩
  have := h.2
  split at this
  · rename_i hi; rw [if_pos hi]; exact endsWith_append this
  · rename_i hi; rw [if_neg hi]; exact endsWith_append this

theorem takes_enforcementDate : Takes enforcementDate fun x t =>
    BeginsWith [[str!"Ez a", str!"törvény"], [str!"E", str!"törvény"], [str!"A "], [str!"Az "]] t ∧ DateEnd x t := by
  refine (Takes.bind takes_enforcementSubject (M := fun _ x t => DateEnd x t) fun _ => ?_).mono ?_
  · refine takes_right (fun _ _ _ => dateEnd_append) fun _ => takes_right (fun _ _ _ => dateEnd_append) fun _ =>
      takes_right (fun _ _ _ => dateEnd_append) fun _ => takes_right (fun _ _ _ => dateEnd_append) fun _ => ?_
    refine (Takes.bind (Takes.tok _) fun _ => Takes.bind (Takes.opt takes_inlineRepeal.ends_call) fun _ =>
      Takes.bind (Takes.tok _) fun _ => Takes.pure _).mono ?_
    rintro x t ⟨_, u, v, rfl, hu, r, v, w, rfl, hv, _, w, z, rfl, hw, rfl, rfl⟩
    refine ⟨contains_append_right (endsWith_contains (spaced_ends (by simp) hu)), ?_⟩
    rcases hv with ⟨d, rfl, hv⟩ | ⟨rfl, rfl⟩
    · rw [if_neg (by simp), List.append_nil]
      exact endsWith_append (endsWith_then (l := [[str!"hatályát veszti"]]) (by simp) hv hw)
    · rw [if_pos rfl, List.append_nil, List.nil_append]
      exact spaced_ends (by simp) (spaced_append hu hw)
  · rintro x t ⟨_, u, v, rfl, hu, hv⟩
    exact ⟨beginsWith_append hu, dateEnd_append hv⟩

/-! ### Text amendments and repeals -/

/-- A quote is in the text. -/
def Quoted (t : Str) : Prop := Contains [[str!"„"]] t ∧ Contains [[str!"”"]] t

theorem Quoted.left {s t : Str} (h : Quoted t) : Quoted (s ++ t) := ⟨contains_append_left h.1, contains_append_left h.2⟩
theorem Quoted.right {s t : Str} (h : Quoted s) : Quoted (s ++ t) := ⟨contains_append_right h.1, contains_append_right h.2⟩

theorem spaced_contains {w t : Str} (h : Spaced [w] t) : Contains [[w]] t := endsWith_contains (spaced_ends (by simp) h)

theorem takes_quote : Takes (P.call quote) fun _ t => Quoted t := by
  have : Takes quote fun _ t => Quoted t := by
    refine (Takes.bind (Takes.tok _) fun _ => Takes.bind (Takes.any _) fun _ => Takes.bind (Takes.tok _) fun _ => Takes.any _).mono ?_
    rintro _ t ⟨_, u, v, rfl, hu, _, v, w, rfl, -, _, w, z, rfl, hw, -⟩
    exact ⟨contains_append_right (spaced_contains hu),
      contains_append_left (contains_append_left (contains_append_right (spaced_contains hw)))⟩
  exact this.call.mono fun _ _ ⟨_, _, _, e, h⟩ => e ▸ h.left

theorem takes_left {p : P α} {f : α → P β} {L : Str → Prop} (hL : ∀ s t, L s → L (s ++ t))
    (hp : Takes p fun _ t => L t) : Takes (p >>= f) fun _ t => L t :=
  (Takes.bind hp fun a => Takes.any (f a)).mono fun _ _ ⟨_, u, v, e, hu, _⟩ => e ▸ hL u v hu

theorem takes_listOf {p : P α} {L : Str → Prop} (hl : ∀ s t, L t → L (s ++ t)) (hr : ∀ s t, L s → L (s ++ t))
    (hp : Takes p fun _ t => L t) : Takes (listOf p) fun _ t => L t :=
  takes_left hr (hp.call.mono fun _ _ ⟨_, _, _, e, h⟩ => e ▸ hl _ _ h)

theorem takes_many {p : P α} {L : Str → Prop} (hr : ∀ s t, L s → L (s ++ t)) (hp : Takes p fun _ t => L t) :
    Takes (P.many p) fun l t => l ≠ [] → L t := by
  intro i l j h
  obtain ⟨c, hc, -⟩ := (P.many p).adv i l j h
  refine ⟨c, hc, fun hne => ?_⟩
  change some (P.manyRun p (i.rest.length + 1) i) = _ at h
  rw [P.manyRun] at h
  rcases hpr : p.run i with _ | ⟨a, k⟩ <;> rw [hpr] at h
  · cases h; exact absurd rfl hne
  · simp only at h
    obtain ⟨t, e, ht⟩ := hp _ _ _ hpr
    split at h
    · have hk : ∃ u, k.rest = u ++ j.rest := by
        obtain ⟨u, hu, -⟩ := P.manyRun_adv p i.rest.length k
        cases h
        exact ⟨u, hu⟩
      obtain ⟨u, hu⟩ := hk
      have : c = t ++ u := List.append_cancel_right (bs := j.rest) (by rw [← hc, e, hu, List.append_assoc])
      rw [this]; exact hr _ _ ht
    · cases h; exact absurd rfl hne

/-- The words of a part of a text amendment. -/
def Replaced (t : Str) : Prop := Quoted t ∧ Contains [[str!"helyébe"], [str!"helyett"]] t

theorem Replaced.left {s t : Str} (h : Replaced t) : Replaced (s ++ t) := ⟨h.1.left, contains_append_left h.2⟩
theorem Replaced.right {s t : Str} (h : Replaced s) : Replaced (s ++ t) := ⟨h.1.right, contains_append_right h.2⟩

theorem takes_textAmendmentPart : Takes textAmendmentPart fun _ t => Replaced t := by
  refine takes_right (fun _ _ _ => Replaced.left) fun _ => ?_
  refine (Takes.bind takes_quote fun _ => Takes.bind (Takes.any _) fun _ => Takes.bind (Takes.toks _) fun _ => Takes.any _).mono ?_
  rintro _ t ⟨_, u, v, rfl, hu, _, v, w, rfl, -, _, w, z, rfl, ⟨x, hx, hw⟩, -⟩
  refine ⟨hu.right, contains_append_left (contains_append_left (contains_append_right (endsWith_contains (spaced_ends ?_ hw))))⟩
  simp only [List.mem_cons, List.not_mem_nil, or_false] at hx
  rcases hx with rfl | rfl <;> decide

/-- The words of a text amendment. -/
def TextEnd (t : Str) : Prop :=
  Replaced t ∧ EndsWith [[str!"lép", str!"."], [str!"lép", str!"hatályba", str!"."]] t

theorem TextEnd.left {s t : Str} (h : TextEnd t) : TextEnd (s ++ t) := ⟨h.1.left, endsWith_append h.2⟩

theorem takesS_textAmendment : TakesS textAmendment fun _ t => BeginsWith definiteArticles t ∧ TextEnd t := by
  refine takesS_article (L := fun (_ : GTextAmendment) t => TextEnd t) ?_ fun _ _ _ => TextEnd.left
  refine takesS_right (fun _ _ _ => TextEnd.left) fun _ => takesS_right (fun _ _ _ => TextEnd.left) fun _ => ?_
  refine (TakesS.bind (TakesS.lift (takes_listOf (fun _ _ => Replaced.left) (fun _ _ => Replaced.right) takes_textAmendmentPart))
    fun _ => TakesS.bind (TakesS.any _) fun _ => TakesS.bind (TakesS.lift (Takes.tok _)) fun _ =>
      TakesS.bind (TakesS.lift (Takes.opt (Takes.tok _))) fun _ => TakesS.bind (TakesS.lift (Takes.tok _)) fun _ =>
        TakesS.pure _).mono ?_
  rintro _ t ⟨_, u, v, rfl, hu, _, v, w, rfl, -, _, w, x, rfl, hw, _, x, y, rfl, hx, _, y, z, rfl, hy, rfl, rfl⟩
  refine ⟨hu.right, endsWith_append (endsWith_append ?_)⟩
  rw [List.append_nil]
  rcases hx with ⟨_, rfl, hx⟩ | ⟨rfl, rfl⟩
  · exact spaced_ends (e := [str!"lép", str!"hatályba", str!"."]) (by simp) (spaced_append hw (spaced_append hx hy))
  · exact spaced_ends (e := [str!"lép", str!"."]) (by simp) (spaced_append hw hy)

theorem takes_repealText : Takes repealText fun _ t => Quoted t :=
  takes_right (fun _ _ _ => Quoted.left) fun _ => takes_left (fun _ _ => Quoted.right) takes_quote

/-- The words of a repeal. -/
def RepealEnd (x : GRepeal) (t : Str) : Prop := EndsWith [[str!"."]] t ∧ (x.texts ≠ [] → Quoted t)

theorem RepealEnd.left {x : GRepeal} {s t : Str} (h : RepealEnd x t) : RepealEnd x (s ++ t) :=
  ⟨endsWith_append h.1, fun hx => (h.2 hx).left⟩

theorem takesS_repeal : TakesS repeal fun x t => BeginsWith repealingWords t ∧ RepealEnd x t := by
  have haz : Takes (P.call az) fun _ t => ∃ b u, OnlyWs b ∧ t = b ++ u ∧ (u = str!"a " ∨ u = str!"az ") := takes_az.call
  refine (TakesS.bind (TakesS.lift (Takes.toks _)) fun _ => TakesS.bind (TakesS.lift haz)
    (M := fun _ x t => RepealEnd x t) fun _ => ?_).mono ?_
  · refine takesS_right (fun _ _ _ => RepealEnd.left) fun _ => takesS_right (fun _ _ _ => RepealEnd.left) fun _ => ?_
    refine (TakesS.bind (TakesS.lift (takes_many (fun _ _ => Quoted.right) takes_repealText)) fun _ =>
      TakesS.bind (TakesS.lift (Takes.tok _)) fun _ => TakesS.pure _).mono ?_
    rintro _ t ⟨_, u, v, rfl, hu, _, v, w, rfl, hv, rfl, rfl⟩
    rw [List.append_nil]
    exact ⟨endsWith_append (spaced_ends (by simp) hv), fun hx => (hu hx).right⟩
  · rintro x t ⟨_, u, v, rfl, ⟨w, hw, hu⟩, _, v, z, rfl, ⟨b, a, hb, rfl, ha⟩, hz⟩
    refine ⟨?_, hz.left.left⟩
    rw [← List.append_assoc]
    refine beginsWith_append ⟨[w, a], ?_, u ++ (b ++ a), [], spaced_append hu (spaced_one hb), by simp⟩
    simp only [List.mem_cons, List.not_mem_nil, or_false] at hw
    rcases hw with rfl | rfl | rfl <;> rcases ha with rfl | rfl <;> decide

/-! ### The whole text -/

/-- The words of a text with the given structure. -/
def RootWords : Root → Str → Prop
  | .blockAmendment x, t => BeginsWith definiteArticles t ∧ BlockEnd replacingWords x.amended.isNone t
  | .blockAmendmentWithSubtitle x, t => BeginsWith definiteArticles t ∧ BlockEnd replacingHeadingWords x.isInsertion t
  | .blockAmendmentStructural x, t => BeginsWith definiteArticles t ∧ BlockEnd replacingHeadingWords x.isInsertion t
  | .textAmendment _, t => BeginsWith definiteArticles t ∧ TextEnd t
  | .enforcementDate x, t =>
    BeginsWith [[str!"Ez a", str!"törvény"], [str!"E", str!"törvény"], [str!"A "], [str!"Az "]] t ∧ DateEnd x t
  | .repeal x, t => BeginsWith repealingWords t ∧ RepealEnd x t
  | .simple _, _ => True

theorem entire_takes {p : PS α} {f : α → Root} {L : α → Str → Prop} (hp : TakesS p L) {n : Nat} {s : Str} {x : Root} {j : Inp} {u v : St}
    (h : (entire p f).run ⟨n, s⟩ u = (some (x, j), v)) : ∃ a b t c, x = f a ∧ s = b ++ t ++ c ∧ OnlyWs b ∧ OnlyWs c ∧ L a t := by
  obtain ⟨a, k, w, h1, h2⟩ := PS.run_bind.1 h
  obtain ⟨_, k2, w2, h3, h4⟩ := PS.run_bind.1 h2
  obtain ⟨rfl, rfl, rfl⟩ := PS.run_pure.1 h4
  obtain ⟨_, k0, w0, h5, h6⟩ := PS.run_bind.1 h1
  obtain ⟨h7, rfl⟩ := PS.run_lift.1 h5
  obtain ⟨h8, rfl⟩ := PS.run_lift.1 h3
  obtain ⟨e0, -⟩ := run_ws h7
  obtain ⟨t, e1, ht⟩ := hp _ _ _ _ _ h6
  obtain ⟨_, k3, h9, h4⟩ := P.run_bind.1 h8
  obtain ⟨e2, -⟩ := run_ws h9
  have h5 : k3.rest = [] := by
    change (if k3.rest.isEmpty then some ((), k3) else none) = _ at h4
    split at h4
    · rename_i he; exact List.isEmpty_iff.1 he
    · cases h4
  refine ⟨a, s.takeWhile P.isWs, t, k.rest.takeWhile P.isWs, rfl, ?_, fun c hc => isWs_iff.1 (mem_takeWhile_imp hc), fun c hc => isWs_iff.1 (mem_takeWhile_imp hc), ht⟩
  rw [h5, List.append_nil] at e2
  rw [← e2, List.append_assoc, ← e1]
  exact e0

theorem blank_nil : OnlyWs [] := by simp [OnlyWs]

theorem blank_append {s t : Str} (hs : OnlyWs s) (ht : OnlyWs t) : OnlyWs (s ++ t) := fun c hc => by
  rcases List.mem_append.1 hc with h | h
  · exact hs c h
  · exact ht c h

theorem beginsWith_blank {l : List (List Str)} (hl : ∀ e ∈ l, e ≠ []) {b t c : Str} (hb : OnlyWs b) (h : BeginsWith l t) :
    BeginsWith l (b ++ t ++ c) := by
  obtain ⟨e, he, s, r, hs, rfl⟩ := h
  exact ⟨e, he, b ++ s, r ++ c, spaced_blank (hl e he) hb hs, by simp⟩

theorem contains_blank {l : List (List Str)} {b t c : Str} (h : Contains l t) : Contains l (b ++ t ++ c) :=
  contains_append_right (contains_append_left h)

theorem endsWith_blank {l : List (List Str)} {b t c : Str} (hc : OnlyWs c) (h : EndsWith l t) : EndsWith l (b ++ t ++ c) := by
  obtain ⟨e, he, x, s, r, hs, hr, rfl⟩ := h
  exact ⟨e, he, b ++ x, s, r ++ c, hs, blank_append hr hc, by simp⟩

theorem blockEnd_blank {l : List (List Str)} {ins : Bool} {b t c : Str} (hc : OnlyWs c) (h : BlockEnd l ins t) :
    BlockEnd l ins (b ++ t ++ c) := by
  unfold BlockEnd at h ⊢
  split at h
  · rename_i hi; rw [if_pos hi]; exact endsWith_blank hc h
  · rename_i hi; rw [if_neg hi]; exact ⟨contains_blank h.1, endsWith_blank hc h.2⟩

theorem quoted_blank {b t c : Str} (h : Quoted t) : Quoted (b ++ t ++ c) := h.left.right

theorem rootWords_blank {x : Root} {b t c : Str} (hb : OnlyWs b) (hc : OnlyWs c) (h : RootWords x t) : RootWords x (b ++ t ++ c) := by
  cases x with
  | simple l => trivial
  | blockAmendment x => exact ⟨beginsWith_blank (by decide) hb h.1, blockEnd_blank hc h.2⟩
  | blockAmendmentWithSubtitle x => exact ⟨beginsWith_blank (by decide) hb h.1, blockEnd_blank hc h.2⟩
  | blockAmendmentStructural x => exact ⟨beginsWith_blank (by decide) hb h.1, blockEnd_blank hc h.2⟩
  | textAmendment x =>
    exact ⟨beginsWith_blank (by decide) hb h.1, h.2.1.left.right, endsWith_blank hc h.2.2⟩
  | enforcementDate x =>
    refine ⟨beginsWith_blank (by decide) hb h.1, contains_blank h.2.1, ?_⟩
    have := h.2.2
    split at this
    · rename_i hi; rw [if_pos hi]; exact endsWith_blank hc this
    · rename_i hi; rw [if_neg hi]; exact endsWith_blank hc this
  | repeal x =>
    exact ⟨beginsWith_blank (by decide) hb h.1, endsWith_blank hc h.2.1, fun hx => quoted_blank (h.2.2 hx)⟩

theorem entire_words {p : PS α} {f : α → Root} {L : α → Str → Prop} (hp : TakesS p L) (hL : ∀ a t, L a t → RootWords (f a) t)
    {n : Nat} {s : Str} {x : Root} {j : Inp} {u v : St} (h : (entire p f).run ⟨n, s⟩ u = (some (x, j), v)) : RootWords x s := by
  obtain ⟨a, b, t, c, rfl, rfl, hb, hc, ht⟩ := entire_takes hp h
  exact rootWords_blank hb hc (hL a t ht)

theorem parse_words {s : Str} {known : List Str} {x : Root} (h : parse s known = some x) : RootWords x s := by
  unfold parse at h
  rcases hr : root.run ⟨0, s⟩ ⟨known, []⟩ with ⟨_ | ⟨y, j⟩, t⟩ <;> rw [hr] at h
  · cases h
  · cases h
    rcases PS.run_alt hr with hr | ⟨_, -, hr⟩
    · exact entire_words (f := .blockAmendment) takesS_blockAmendment (fun _ _ h => h) hr
    rcases PS.run_alt hr with hr | ⟨_, -, hr⟩
    · exact entire_words (f := .blockAmendmentWithSubtitle) takesS_blockAmendmentWithSubtitle (fun _ _ h => h) hr
    rcases PS.run_alt hr with hr | ⟨_, -, hr⟩
    · exact entire_words (f := .blockAmendmentStructural) takesS_blockAmendmentStructural (fun _ _ h => h) hr
    rcases PS.run_alt hr with hr | ⟨_, -, hr⟩
    · exact entire_words (f := .textAmendment) takesS_textAmendment (fun _ _ h => h) hr
    rcases PS.run_alt hr with hr | ⟨_, -, hr⟩
    · exact entire_words (f := .enforcementDate) (TakesS.lift takes_enforcementDate) (fun _ _ h => h) hr
    rcases PS.run_alt hr with hr | ⟨_, -, hr⟩
    · exact entire_words (f := .repeal) takesS_repeal (fun _ _ h => h) hr
    · exact entire_words (f := .simple) (TakesS.any _) (fun _ _ _ => trivial) hr

end HunLaw.Grammar
