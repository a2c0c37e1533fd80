import Verif.Model.Structure

/-!
Model of /repo/src/util/walker.rs.

The macro `impl_walk_sae!` is expanded twice with the same text, once for `&` and once for `&mut`
(walker.rs:154-155). It is modelled once for `&mut`; the walk with `&` is the walk of a visitor which leaves
the elements as they are (`Visitor.toMut`). A visitor has one function for every type of element, as the
generic Rust functions are instantiated for these. The visitor's own state is `S`; it is returned together
with the result, because its changes stay there if there is an error. The error message is not modelled.
-/

set_option autoImplicit false

namespace HunLaw

/-- The types for which `WalkSAE for SubArticleElement` (walker.rs:90-105) is instantiated. -/
inductive Kind where
  | paragraph
  | alphabeticPoint
  | numericPoint
  | alphabeticSubpoint
  | numericSubpoint
  deriving Repr, DecidableEq

/-- The parameter `IT` of the instantiation (structure.rs:311, 337, 357, 374, 390). -/
abbrev Kind.Id : Kind → Type
  | .paragraph => ParagraphId
  | .alphabeticPoint => HunChar
  | .numericPoint => NumericId
  | .alphabeticSubpoint => PrefixedId
  | .numericSubpoint => NumericId

/-- The parameter `CT` of the instantiation (structure.rs:311, 337, 357, 374, 390). -/
abbrev Kind.Children (A : Type) : Kind → Type
  | .paragraph => ParagraphChildren A
  | .alphabeticPoint => AlphabeticPointChildren
  | .numericPoint => NumericPointChildren
  | .alphabeticSubpoint => NoChildren
  | .numericSubpoint => NoChildren

/-- The element of a kind. -/
abbrev Element (A : Type) (k : Kind) : Type := SAE k.Id (k.Children A)

/-- Models `ReferenceToElement::reference` (to_element.rs:48-93) of the elements. -/
def Kind.reference : (k : Kind) → k.Id → Ref
  | .paragraph, i => Ref.toParagraph i
  | .alphabeticPoint, i => Ref.toAlphabeticPoint i
  | .numericPoint, i => Ref.toNumericPoint i
  | .alphabeticSubpoint, i => Ref.toAlphabeticSubpoint i
  | .numericSubpoint, i => Ref.toNumericSubpoint i

/-- Models `trait SAEVisitorMut` (walker.rs:34-54). -/
structure VisitorMut (A S : Type) where
  onEnter : (k : Kind) → Ref → Element A k → S → Element A k × S × Res Unit
  onExit : (k : Kind) → Ref → Element A k → S → Element A k × S × Res Unit

/-- Models `trait SAEVisitor` (walker.rs:34-54). -/
structure Visitor (A S : Type) where
  onEnter : (k : Kind) → Ref → Element A k → S → S × Res Unit
  onExit : (k : Kind) → Ref → Element A k → S → S × Res Unit

def Visitor.toMut {A S : Type} (v : Visitor A S) : VisitorMut A S where
  onEnter k p e s := (e, v.onEnter k p e s)
  onExit k p e s := (e, v.onExit k p e s)

namespace Walk

/-- Models `walk_saes for Vec<T>` (walker.rs:59-66). -/
def list {X S : Type} (f : X → S → X × S × Res Unit) : List X → S → List X × S × Res Unit
  | [], s => ([], s, .ok ())
  | x :: l, s =>
    match f x s with
    | (x', s', .ok ()) =>
      match list f l s' with
      | (l', s'', r) => (x' :: l', s'', r)
    | (x', s', r) => (x' :: l, s', r)

/-- Models `if let SAEBody::Children {children, ..}` (walker.rs:99-101). -/
def body {C S : Type} (f : C → S → C × S × Res Unit) (b : SAEBody C) (s : S) :
    SAEBody C × S × Res Unit :=
  match b with
  | .text t => (.text t, s, .ok ())
  | .children i c w =>
    match f c s with
    | (c', s', r) => (.children i c' w, s', r)

/-- Models `walk_saes for SubArticleElement` (walker.rs:90-105); `children` is `walk_saes` of `CT`. -/
def sae {A S : Type} (v : VisitorMut A S) (k : Kind)
    (children : Ref → k.Children A → S → k.Children A × S × Res Unit)
    (base : Ref) (e : Element A k) (s : S) : Element A k × S × Res Unit :=
  match (k.reference e.identifier).relativeTo base with
  | none => (e, s, .err)
  | some pos =>
    match v.onEnter k pos e s with
    | (e1, s1, .ok ()) =>
      match body (children pos) e1.body s1 with
      | (b, s2, .ok ()) => v.onExit k pos { e1 with body := b } s2
      | (b, s2, r) => ({ e1 with body := b }, s2, r)
    | (e1, s1, r) => (e1, s1, r)

/-- Models `walk_saes for AlphabeticSubpointChildren` (walker.rs:138-143) and `for NumericSubpointChildren`
(walker.rs:145-150). -/
def noChildren {S : Type} (_ : Ref) (c : NoChildren) (_ : S) : NoChildren × S × Res Unit := nomatch c

def alphabeticSubpoint {A S : Type} (v : VisitorMut A S) (base : Ref) (e : AlphabeticSubpoint) (s : S) :
    AlphabeticSubpoint × S × Res Unit :=
  sae v .alphabeticSubpoint noChildren base e s

def numericSubpoint {A S : Type} (v : VisitorMut A S) (base : Ref) (e : NumericSubpoint) (s : S) :
    NumericSubpoint × S × Res Unit :=
  sae v .numericSubpoint noChildren base e s

/-- Models `walk_saes for AlphabeticPointChildren` (walker.rs:121-128). -/
def alphabeticPointChildren {A S : Type} (v : VisitorMut A S) (base : Ref) :
    AlphabeticPointChildren → S → AlphabeticPointChildren × S × Res Unit
  | .alphabeticSubpoint l, s =>
    match list (alphabeticSubpoint v base) l s with
    | (l', s', r) => (.alphabeticSubpoint l', s', r)
  | .numericSubpoint l, s =>
    match list (numericSubpoint v base) l s with
    | (l', s', r) => (.numericSubpoint l', s', r)

/-- Models `walk_saes for NumericPointChildren` (walker.rs:130-136). -/
def numericPointChildren {A S : Type} (v : VisitorMut A S) (base : Ref) :
    NumericPointChildren → S → NumericPointChildren × S × Res Unit
  | .alphabeticSubpoint l, s =>
    match list (alphabeticSubpoint v base) l s with
    | (l', s', r) => (.alphabeticSubpoint l', s', r)

def alphabeticPoint {A S : Type} (v : VisitorMut A S) (base : Ref) (e : AlphabeticPoint) (s : S) :
    AlphabeticPoint × S × Res Unit :=
  sae v .alphabeticPoint (alphabeticPointChildren v) base e s

def numericPoint {A S : Type} (v : VisitorMut A S) (base : Ref) (e : NumericPoint) (s : S) :
    NumericPoint × S × Res Unit :=
  sae v .numericPoint (numericPointChildren v) base e s

/-- Models `walk_saes for ParagraphChildren` (walker.rs:107-119). -/
def paragraphChildren {A S : Type} (v : VisitorMut A S) (base : Ref) :
    ParagraphChildren A → S → ParagraphChildren A × S × Res Unit
  | .alphabeticPoint l, s =>
    match list (alphabeticPoint v base) l s with
    | (l', s', r) => (.alphabeticPoint l', s', r)
  | .numericPoint l, s =>
    match list (numericPoint v base) l s with
    | (l', s', r) => (.numericPoint l', s', r)
  | .quotedBlock l, s => (.quotedBlock l, s, .ok ())
  | .amendment a, s => (.amendment a, s, .ok ())

def paragraph {A S : Type} (v : VisitorMut A S) (base : Ref) (e : Paragraph A) (s : S) :
    Paragraph A × S × Res Unit :=
  sae v .paragraph (paragraphChildren v) base e s

/-- Models `walk_saes for Article` (walker.rs:84-88). -/
def article {A S : Type} (v : VisitorMut A S) (base : Ref) (a : Article A) (s : S) :
    Article A × S × Res Unit :=
  match (Ref.toArticle a.identifier).relativeTo base with
  | none => (a, s, .err)
  | some pos =>
    match list (paragraph v pos) a.children s with
    | (l, s', r) => ({ a with children := l }, s', r)

/-- Models `walk_saes for ActChild` (walker.rs:74-82). -/
def actChild {A S : Type} (v : VisitorMut A S) (base : Ref) (c : ActChild A) (s : S) :
    ActChild A × S × Res Unit :=
  match c with
  | .article a =>
    match article v base a s with
    | (a', s', r) => (.article a', s', r)
  | c => (c, s, .ok ())

/-- Models `Act::walk_saes_mut` (walker.rs:68-72). -/
def actMut {A S : Type} (v : VisitorMut A S) (a : Act A) (s : S) : Act A × S × Res Unit :=
  match list (actChild v (Ref.ofAct a.identifier)) a.children s with
  | (l, s', r) => ({ a with children := l }, s', r)

/-- Models `Act::walk_saes` (walker.rs:68-72). The act is not changed (`C42_unchanged`). -/
def act {A S : Type} (v : Visitor A S) (a : Act A) (s : S) : S × Res Unit := (actMut v.toMut a s).2

end Walk

end HunLaw
