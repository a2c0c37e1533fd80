import Verif.Model.Basic

/-!
The parsing expressions from which `peginator` builds the parser of /repo/hun_law_grammar/grammar.ebnf. The
generator is a dependency that is not in /repo; its documented behaviour is modelled here:

* choices are ordered and do not come back to an alternative after it succeeded;
* `[x]`, `{x}` and `{x}+` take as much as they can;
* `!x` and `&x` look ahead without moving;
* in rules without `@no_skip_ws`, ASCII whitespace is skipped before literals, character ranges, called rules and
  the end of the input (`tok`, `call` below), in rules with it nothing is skipped (`lit`, and the rule itself);
* `@string` gives the text between the start and the end of the rule, `@position` the byte positions of these;
* `@memoize` gives the first result of the rule at a position again;
* the user context is not restored when the parser goes back.

A parser only moves forward in the text; this is a part of its type (`adv`), so it holds for each rule.
-/

set_option autoImplicit false

namespace HunLaw.Grammar

open HunLaw

/-- What is left of the text, and the number of the bytes before it. -/
structure Inp where
  pos : Nat
  rest : Str
  deriving Repr, DecidableEq

/-- `j` is `i` after some characters. -/
def Inp.Step (i j : Inp) : Prop := ∃ c, i.rest = c ++ j.rest ∧ j.pos = i.pos + byteLen c

theorem byteLen_append' (a b : Str) : byteLen (a ++ b) = byteLen a + byteLen b := by
  induction a with
  | nil => simp [byteLen]
  | cons c a ih => simp [byteLen, ih, Nat.add_assoc]

theorem Inp.Step.refl (i : Inp) : i.Step i := ⟨[], by simp [byteLen]⟩

theorem Inp.Step.trans {i j k : Inp} (h1 : i.Step j) (h2 : j.Step k) : i.Step k := by
  obtain ⟨c, hc, hp⟩ := h1
  obtain ⟨d, hd, hq⟩ := h2
  exact ⟨c ++ d, by simp [hc, hd], by rw [hq, hp, byteLen_append', Nat.add_assoc]⟩

/-- The text after the first `n` characters. -/
def Inp.drop (n : Nat) (i : Inp) : Inp := ⟨i.pos + byteLen (i.rest.take n), i.rest.drop n⟩

theorem Inp.Step.drop (n : Nat) (i : Inp) : i.Step (i.drop n) :=
  ⟨i.rest.take n, by simp [Inp.drop], rfl⟩

/-- A parser which does not use the user context. -/
structure P (α : Type) where
  run : Inp → Option (α × Inp)
  adv : ∀ i a j, run i = some (a, j) → i.Step j

namespace P

variable {α β : Type}

protected def pure (a : α) : P α where
  run i := some (a, i)
  adv i b j h := by cases h; exact .refl i

def bindRun (p : P α) (f : α → P β) (i : Inp) : Option (β × Inp) :=
  match p.run i with
  | some (a, j) => (f a).run j
  | none => none

protected def bind (p : P α) (f : α → P β) : P β where
  run := bindRun p f
  adv i b k h := by
    unfold bindRun at h
    rcases hp : p.run i with _ | ⟨a, j⟩ <;> rw [hp] at h
    · simp at h
    · exact (p.adv i a j hp).trans ((f a).adv j b k h)

instance : Monad P where
  pure := P.pure
  bind := P.bind

def altRun (p q : P α) (i : Inp) : Option (α × Inp) :=
  match p.run i with
  | some r => some r
  | none => q.run i

/-- Ordered choice. -/
def alt (p q : P α) : P α where
  run := altRun p q
  adv i a j h := by
    unfold altRun at h
    rcases hp : p.run i with _ | r <;> rw [hp] at h
    · exact q.adv i a j h
    · cases h; exact p.adv i a j hp

instance : OrElse (P α) where
  orElse p q := alt p (q ())

def optRun (p : P α) (i : Inp) : Option (Option α × Inp) :=
  match p.run i with
  | some (a, j) => some (some a, j)
  | none => some (none, i)

/-- `[x]` -/
def opt (p : P α) : P (Option α) where
  run := optRun p
  adv i a j h := by
    unfold optRun at h
    rcases hp : p.run i with _ | ⟨b, k⟩ <;> rw [hp] at h
    · cases h; exact .refl i
    · cases h; exact p.adv i b _ hp

/-- `{x}` for at most `n` times. It ends if `x` does not move: there the generated parser would go on without
end; this does not happen in the grammar, as the bodies of all loops take at least one character. -/
def manyRun (p : P α) : Nat → Inp → List α × Inp
  | 0, i => ([], i)
  | n + 1, i =>
    match p.run i with
    | none => ([], i)
    | some (a, j) =>
      if j.rest.length < i.rest.length then
        match manyRun p n j with
        | (l, k) => (a :: l, k)
      else ([], i)

theorem manyRun_adv (p : P α) (n : Nat) (i : Inp) : i.Step (manyRun p n i).2 := by
  induction n generalizing i with
  | zero => exact .refl i
  | succ n ih =>
    rw [manyRun]
    rcases hp : p.run i with _ | ⟨a, j⟩
    · exact .refl i
    · simp only
      split
      · exact (p.adv i a j hp).trans (ih j)
      · exact .refl i

/-- `{x}`. The text is long enough for the number of the rounds. -/
def many (p : P α) : P (List α) where
  run i := some (manyRun p (i.rest.length + 1) i)
  adv i a j h := by
    have := manyRun_adv p (i.rest.length + 1) i
    simp only [Option.some.injEq] at h
    rw [h] at this
    exact this

/-- `{x}+` -/
def many1 (p : P α) : P (List α) := do
  let a ← p
  let l ← many p
  pure (a :: l)

def notRun (p : P α) (i : Inp) : Option (Unit × Inp) :=
  match p.run i with
  | some _ => none
  | none => some ((), i)

/-- `!x` -/
def not (p : P α) : P Unit where
  run := notRun p
  adv i a j h := by
    unfold notRun at h
    rcases hp : p.run i with _ | r <;> rw [hp] at h
    · cases h; exact .refl i
    · simp at h

def andRun (p : P α) (i : Inp) : Option (Unit × Inp) :=
  match p.run i with
  | some _ => some ((), i)
  | none => none

/-- `&x` -/
def and (p : P α) : P Unit where
  run := andRun p
  adv i a j h := by
    unfold andRun at h
    rcases hp : p.run i with _ | r <;> rw [hp] at h
    · simp at h
    · cases h; exact .refl i

def charRun (f : Char → Bool) (i : Inp) : Option (Char × Inp) :=
  match i.rest with
  | c :: _ => if f c then some (c, i.drop 1) else none
  | [] => none

/-- One character of a set. -/
def char (f : Char → Bool) : P Char where
  run := charRun f
  adv i a j h := by
    unfold charRun at h
    split at h
    · split at h
      · cases h; exact .drop 1 i
      · simp at h
    · simp at h

/-- A literal. -/
def lit (s : Str) : P Unit where
  run i := if s.isPrefixOf i.rest then some ((), i.drop s.length) else none
  adv i a j h := by
    split at h
    · cases h; exact .drop _ i
    · simp at h

/-- The first of the literals which fits. -/
def lits : List Str → P Unit
  | [] => ⟨fun _ => none, fun _ _ _ h => by simp at h⟩
  | s :: l => alt (lit s) (lits l)

/-- `u8::is_ascii_whitespace` -/
def isWs (c : Char) : Bool := c == ' ' || c == '\t' || c == '\n' || c == '\r' || c == '\x0c'

/-- The rule `Whitespace` of the generator. -/
def ws : P Unit where
  run i := some ((), i.drop (i.rest.takeWhile isWs).length)
  adv i a j h := by cases h; exact .drop _ i

/-- A called rule in a rule which skips whitespace. -/
def call (p : P α) : P α := do
  ws
  p

/-- A literal in a rule which skips whitespace. -/
def tok (s : Str) : P Unit := call (lit s)

/-- A choice of literals in a rule which skips whitespace. -/
def toks (l : List Str) : P Unit := call (lits l)

/-- The end of the input. -/
def eoi : P Unit where
  run i := if i.rest.isEmpty then some ((), i) else none
  adv i a j h := by
    split at h
    · cases h; exact .refl i
    · simp at h

def sliceRun (p : P α) (i : Inp) : Option (Str × Inp) :=
  match p.run i with
  | some (_, j) => some (i.rest.take (i.rest.length - j.rest.length), j)
  | none => none

/-- `@string` -/
def slice (p : P α) : P Str where
  run := sliceRun p
  adv i a j h := by
    unfold sliceRun at h
    rcases hp : p.run i with _ | ⟨b, k⟩ <;> rw [hp] at h
    · simp at h
    · cases h; exact p.adv i b _ hp

end P

/-- The range of bytes of a rule with `@position`. -/
structure Pos where
  start : Nat
  fin : Nat
  deriving Repr, DecidableEq

namespace P

variable {α β : Type}

def positionedRun (p : P (Pos → α)) (i : Inp) : Option (α × Inp) :=
  match p.run i with
  | some (f, j) => some (f ⟨i.pos, j.pos⟩, j)
  | none => none

/-- `@position` -/
def positioned (p : P (Pos → α)) : P α where
  run := positionedRun p
  adv i a j h := by
    unfold positionedRun at h
    rcases hp : p.run i with _ | ⟨b, k⟩ <;> rw [hp] at h
    · simp at h
    · cases h; exact p.adv i b _ hp

/-- A recursive rule. Each level of the recursion takes a character, so the length of the text is enough. -/
def fuel (f : Nat → P α) : P α where
  run i := (f (i.rest.length + 1)).run i
  adv i a j h := (f (i.rest.length + 1)).adv i a j h

end P

/-- The user context `CustomParseState` (hun_law_grammar/src/lib.rs:23-26) and the memo of the rule `ActTitle`:
at which position it was tried, and how many characters it took. -/
structure St where
  known : List Str
  titles : List (Nat × Nat)
  deriving Repr, DecidableEq

/-- A parser which uses the context. -/
structure PS (α : Type) where
  run : Inp → St → Option (α × Inp) × St
  adv : ∀ i s a j t, run i s = (some (a, j), t) → i.Step j

namespace PS

variable {α β : Type}

protected def pure (a : α) : PS α where
  run i s := (some (a, i), s)
  adv i s b j t h := by cases h; exact .refl i

def bindRun (p : PS α) (f : α → PS β) (i : Inp) (s : St) : Option (β × Inp) × St :=
  match p.run i s with
  | (some (a, j), t) => (f a).run j t
  | (none, t) => (none, t)

protected def bind (p : PS α) (f : α → PS β) : PS β where
  run := bindRun p f
  adv i s b k u h := by
    unfold bindRun at h
    rcases hp : p.run i s with ⟨_ | ⟨a, j⟩, t⟩ <;> rw [hp] at h
    · simp at h
    · exact (p.adv i s a j t hp).trans ((f a).adv j t b k u h)

instance : Monad PS where
  pure := PS.pure
  bind := PS.bind

/-- A parser which does not use the context. -/
def lift (p : P α) : PS α where
  run i s := (p.run i, s)
  adv i s a j t h := by
    simp only [Prod.mk.injEq] at h
    exact p.adv i a j h.1

instance : MonadLift P PS where
  monadLift := lift

def altRun (p q : PS α) (i : Inp) (s : St) : Option (α × Inp) × St :=
  match p.run i s with
  | (some r, t) => (some r, t)
  | (none, t) => q.run i t

/-- Ordered choice. What the first alternative did to the context stays there. -/
def alt (p q : PS α) : PS α where
  run := altRun p q
  adv i s a j u h := by
    unfold altRun at h
    rcases hp : p.run i s with ⟨_ | r, t⟩ <;> rw [hp] at h
    · exact q.adv i t a j u h
    · cases h; exact p.adv i s a j _ hp

instance : OrElse (PS α) where
  orElse p q := alt p (q ())

def optRun (p : PS α) (i : Inp) (s : St) : Option (Option α × Inp) × St :=
  match p.run i s with
  | (some (a, j), t) => (some (some a, j), t)
  | (none, t) => (some (none, i), t)

/-- `[x]` -/
def opt (p : PS α) : PS (Option α) where
  run := optRun p
  adv i s a j u h := by
    unfold optRun at h
    rcases hp : p.run i s with ⟨_ | ⟨b, k⟩, t⟩ <;> rw [hp] at h
    · cases h; exact .refl i
    · cases h; exact p.adv i s b _ _ hp

def manyRun (p : PS α) : Nat → Inp → St → (List α × Inp) × St
  | 0, i, s => (([], i), s)
  | n + 1, i, s =>
    match p.run i s with
    | (none, t) => (([], i), t)
    | (some (a, j), t) =>
      if j.rest.length < i.rest.length then
        match manyRun p n j t with
        | ((l, k), u) => ((a :: l, k), u)
      else (([], i), t)

theorem manyRun_adv (p : PS α) (n : Nat) (i : Inp) (s : St) : i.Step (manyRun p n i s).1.2 := by
  induction n generalizing i s with
  | zero => exact .refl i
  | succ n ih =>
    rw [manyRun]
    rcases hp : p.run i s with ⟨_ | ⟨a, j⟩, t⟩
    · exact .refl i
    · simp only
      split
      · exact (p.adv i s a j t hp).trans (ih j t)
      · exact .refl i

/-- `{x}`, as for `P.many`. -/
def many (p : PS α) : PS (List α) where
  run i s := (some (manyRun p (i.rest.length + 1) i s).1, (manyRun p (i.rest.length + 1) i s).2)
  adv i s a j t h := by
    have := manyRun_adv p (i.rest.length + 1) i s
    simp only [Prod.mk.injEq, Option.some.injEq] at h
    rw [h.1] at this
    exact this

/-- `{x}+` -/
def many1 (p : PS α) : PS (List α) := do
  let a ← p
  let l ← many p
  pure (a :: l)

def notRun (p : PS α) (i : Inp) (s : St) : Option (Unit × Inp) × St :=
  match p.run i s with
  | (some _, t) => (none, t)
  | (none, t) => (some ((), i), t)

/-- `!x` -/
def not (p : PS α) : PS Unit where
  run := notRun p
  adv i s a j u h := by
    unfold notRun at h
    rcases hp : p.run i s with ⟨_ | r, t⟩ <;> rw [hp] at h
    · cases h; exact .refl i
    · simp at h

/-- A called rule in a rule which skips whitespace. -/
def call (p : PS α) : PS α := do
  lift P.ws
  p

end PS

end HunLaw.Grammar
