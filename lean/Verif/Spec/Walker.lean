import Verif.Model.Walker

/-! What it means to visit an act in document order, for C42 and C43. -/

set_option autoImplicit false

namespace HunLaw.Spec

open HunLaw

/-- What a visitor is told: an element is entered or left, and where the element is. -/
inductive Event (A : Type) where
  | enter (k : Kind) (position : Ref) (e : Element A k)
  | exit (k : Kind) (position : Ref) (e : Element A k)

/-- An element is entered first, then come its children, then it is left. -/
def around {A : Type} (k : Kind) (position : Ref) (e : Element A k) (inner : List (Event A)) :
    List (Event A) :=
  .enter k position e :: inner ++ [.exit k position e]

/-- The visits of the subpoints of a point, if the point is `pt` in paragraph `par` (if that has a number) of
article `art` of `act`. -/
def alphabeticSubpointEvents (A : Type) (act : ActId) (art : ArticleId) (par : Option NumericId)
    (pt : RefPartPoint) (l : List AlphabeticSubpoint) : List (Event A) :=
  l.flatMap fun e => around .alphabeticSubpoint
    ⟨some act, some (.single art), par.map .single, some pt, some (.alphabetic (.single e.identifier))⟩ e []

def numericSubpointEvents (A : Type) (act : ActId) (art : ArticleId) (par : Option NumericId)
    (pt : RefPartPoint) (l : List NumericSubpoint) : List (Event A) :=
  l.flatMap fun e => around .numericSubpoint
    ⟨some act, some (.single art), par.map .single, some pt, some (.numeric (.single e.identifier))⟩ e []

def alphabeticPointInner (A : Type) (act : ActId) (art : ArticleId) (par : Option NumericId)
    (e : AlphabeticPoint) : List (Event A) :=
  match e.body with
  | .children _ (.alphabeticSubpoint l) _ =>
    alphabeticSubpointEvents A act art par (.alphabetic (.single e.identifier)) l
  | .children _ (.numericSubpoint l) _ =>
    numericSubpointEvents A act art par (.alphabetic (.single e.identifier)) l
  | .text _ => []

def numericPointInner (A : Type) (act : ActId) (art : ArticleId) (par : Option NumericId)
    (e : NumericPoint) : List (Event A) :=
  match e.body with
  | .children _ (.alphabeticSubpoint l) _ =>
    alphabeticSubpointEvents A act art par (.numeric (.single e.identifier)) l
  | .text _ => []

/-- The visits of what is in a paragraph: its points, but nothing in quoted blocks and amendments. -/
def paragraphInner {A : Type} (act : ActId) (art : ArticleId) (p : Paragraph A) : List (Event A) :=
  match p.body with
  | .children _ (.alphabeticPoint l) _ =>
    l.flatMap fun e => around .alphabeticPoint
      ⟨some act, some (.single art), p.identifier.id.map .single, some (.alphabetic (.single e.identifier)), none⟩ e
      (alphabeticPointInner A act art p.identifier.id e)
  | .children _ (.numericPoint l) _ =>
    l.flatMap fun e => around .numericPoint
      ⟨some act, some (.single art), p.identifier.id.map .single, some (.numeric (.single e.identifier)), none⟩ e
      (numericPointInner A act art p.identifier.id e)
  | .children _ (.quotedBlock _) _ => []
  | .children _ (.amendment _) _ => []
  | .text _ => []

def articleEvents {A : Type} (act : ActId) (a : Article A) : List (Event A) :=
  a.children.flatMap fun p => around .paragraph
    ⟨some act, some (.single a.identifier), p.identifier.id.map .single, none, none⟩ p
    (paragraphInner act a.identifier p)

/-- All visits of an act in document order. -/
def actEvents {A : Type} (a : Act A) : List (Event A) :=
  a.articles.flatMap (articleEvents a.identifier)

/-- What the visitor does for an event. -/
def notify {A S : Type} (v : Visitor A S) (s : S) : Event A → S × Res Unit
  | .enter k p e => v.onEnter k p e s
  | .exit k p e => v.onExit k p e s

/-- The visitor is told the events one after the other. It is told nothing after the first failure. -/
def tell {A S : Type} (v : Visitor A S) : List (Event A) → S → S × Res Unit
  | [], s => (s, .ok ())
  | ev :: l, s =>
    match notify v s ev with
    | (s', .ok ()) => tell v l s'
    | (s', r) => (s', r)

/-- Properly nested events. -/
inductive Paired {A : Type} : List (Event A) → Prop where
  | nil : Paired []
  | around (k : Kind) (p : Ref) (e : Element A k) {l m : List (Event A)} :
      Paired l → Paired m → Paired (.enter k p e :: l ++ .exit k p e :: m)

/-- The subpoints that a point has. -/
def subpointsOf {A : Type} (k : Kind) (e : Element A k) : List AlphabeticSubpoint × List NumericSubpoint :=
  match k, e with
  | .alphabeticPoint, ⟨_, .children _ (.alphabeticSubpoint l) _, _, _⟩ => (l, [])
  | .alphabeticPoint, ⟨_, .children _ (.numericSubpoint l) _, _, _⟩ => ([], l)
  | .numericPoint, ⟨_, .children _ (.alphabeticSubpoint l) _, _, _⟩ => (l, [])
  | _, _ => ([], [])

/-- The points that a paragraph has. -/
def pointsOf {A : Type} (p : Paragraph A) : List AlphabeticPoint × List NumericPoint :=
  match p.body with
  | .children _ (.alphabeticPoint l) _ => (l, [])
  | .children _ (.numericPoint l) _ => ([], l)
  | _ => ([], [])

/-- The reference names exactly the identifiers on the path to the element in the act. -/
inductive Located {A : Type} (act : Act A) : (k : Kind) → Ref → Element A k → Prop where
  | paragraph (a : Article A) (p : Paragraph A) : ActChild.article a ∈ act.children → p ∈ a.children →
      Located act .paragraph
        ⟨some act.identifier, some (.single a.identifier), p.identifier.id.map .single, none, none⟩ p
  | alphabeticPoint {r : Ref} {p : Paragraph A} (e : AlphabeticPoint) :
      Located act .paragraph r p → e ∈ (pointsOf p).1 →
      Located act .alphabeticPoint { r with point := some (.alphabetic (.single e.identifier)) } e
  | numericPoint {r : Ref} {p : Paragraph A} (e : NumericPoint) :
      Located act .paragraph r p → e ∈ (pointsOf p).2 →
      Located act .numericPoint { r with point := some (.numeric (.single e.identifier)) } e
  | alphabeticSubpoint {r : Ref} {k : Kind} {e : Element A k} (x : AlphabeticSubpoint) :
      Located act k r e → x ∈ (subpointsOf k e).1 →
      Located act .alphabeticSubpoint { r with subpoint := some (.alphabetic (.single x.identifier)) } x
  | numericSubpoint {r : Ref} {k : Kind} {e : Element A k} (x : NumericSubpoint) :
      Located act k r e → x ∈ (subpointsOf k e).2 →
      Located act .numericSubpoint { r with subpoint := some (.numeric (.single x.identifier)) } x

/-! An act without its semantic information. -/

def bareBody {C : Type} (f : C → C) : SAEBody C → SAEBody C
  | .text t => .text t
  | .children i c w => .children i (f c) w

def bareSae {I C : Type} (f : C → C) (e : SAE I C) : SAE I C :=
  ⟨e.identifier, bareBody f e.body, .default, e.lastChange⟩

def bareAlphabeticPointChildren : AlphabeticPointChildren → AlphabeticPointChildren
  | .alphabeticSubpoint l => .alphabeticSubpoint (l.map (bareSae id))
  | .numericSubpoint l => .numericSubpoint (l.map (bareSae id))

def bareNumericPointChildren : NumericPointChildren → NumericPointChildren
  | .alphabeticSubpoint l => .alphabeticSubpoint (l.map (bareSae id))

def bareParagraphChildren {A : Type} : ParagraphChildren A → ParagraphChildren A
  | .alphabeticPoint l => .alphabeticPoint (l.map (bareSae bareAlphabeticPointChildren))
  | .numericPoint l => .numericPoint (l.map (bareSae bareNumericPointChildren))
  | .quotedBlock l => .quotedBlock l
  | .amendment a => .amendment a

def bareArticle {A : Type} (a : Article A) : Article A :=
  { a with children := a.children.map (bareSae bareParagraphChildren) }

def bareActChild {A : Type} : ActChild A → ActChild A
  | .article a => .article (bareArticle a)
  | c => c

/-- The act with the semantic information of every paragraph, point and subpoint removed. -/
def bareAct {A : Type} (a : Act A) : Act A := { a with children := a.children.map bareActChild }

/-- A visitor which changes only the semantic information of the elements. -/
def InfoOnly {A S : Type} (v : VisitorMut A S) : Prop :=
  ∀ k p e s, (v.onEnter k p e s).1.identifier = e.identifier ∧ (v.onEnter k p e s).1.body = e.body ∧
    (v.onEnter k p e s).1.lastChange = e.lastChange ∧
    (v.onExit k p e s).1.identifier = e.identifier ∧ (v.onExit k p e s).1.body = e.body ∧
    (v.onExit k p e s).1.lastChange = e.lastChange

end HunLaw.Spec
