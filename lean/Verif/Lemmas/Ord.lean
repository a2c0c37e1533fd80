import Verif.Model.Identifiers

/-! The `Ord` implementations are total orders compatible with equality. -/

set_option autoImplicit false

namespace HunLaw

/-- What Rust demands of an `Ord` implementation. -/
class LawfulOrd (α : Type) [RustOrd α] : Prop where
  eq_iff : ∀ a b : α, cmp a b = .eq ↔ a = b
  swap : ∀ a b : α, (cmp a b).swap = cmp b a
  trans : ∀ a b c : α, cmp a b = .lt → cmp b c = .lt → cmp a c = .lt

theorem compare_nat_lt {a b : Nat} : compare a b = .lt ↔ a < b := Nat.compare_eq_lt
theorem compare_nat_eq {a b : Nat} : compare a b = .eq ↔ a = b := Nat.compare_eq_eq

instance : LawfulOrd Nat where
  eq_iff a b := Nat.compare_eq_eq
  swap a b := Nat.compare_swap a b
  trans a b c h1 h2 := by
    simp only [cmp, Nat.compare_eq_lt] at *; omega

/-- Pull an order back along an injective map. -/
theorem LawfulOrd.ofInj {α β : Type} [RustOrd α] [RustOrd β] [LawfulOrd β] (f : α → β)
    (hf : ∀ a b, f a = f b → a = b) (hc : ∀ a b : α, cmp a b = cmp (f a) (f b)) : LawfulOrd α where
  eq_iff a b := by
    rw [hc, LawfulOrd.eq_iff]
    exact ⟨hf a b, fun h => by rw [h]⟩
  swap a b := by rw [hc, hc, LawfulOrd.swap]
  trans a b c := by rw [hc, hc, hc]; exact LawfulOrd.trans _ _ _

instance {n : Nat} : LawfulOrd (Fin n) :=
  LawfulOrd.ofInj (β := Nat) (fun a => a.val) (fun _ _ h => Fin.ext h) (fun _ _ => rfl)

theorem cmp_int_lt {a b : Int} : (cmp a b : Ordering) = .lt ↔ a < b := by
  show compareOfLessAndEq a b = .lt ↔ _
  unfold compareOfLessAndEq
  split
  · simp [*]
  · split <;> simp [*]

theorem cmp_int_eq {a b : Int} : (cmp a b : Ordering) = .eq ↔ a = b := by
  show compareOfLessAndEq a b = .eq ↔ _
  unfold compareOfLessAndEq
  split
  · simp; omega
  · split <;> simp [*]

theorem cmp_int_gt {a b : Int} : (cmp a b : Ordering) = .gt ↔ b < a := by
  show compareOfLessAndEq a b = .gt ↔ _
  unfold compareOfLessAndEq
  split
  · simp; omega
  · split <;> simp <;> omega

instance : LawfulOrd Int where
  eq_iff a b := cmp_int_eq
  swap a b := by
    rcases Int.lt_trichotomy a b with h | h | h
    · rw [cmp_int_lt.2 h, cmp_int_gt.2 h]; rfl
    · rw [cmp_int_eq.2 h, cmp_int_eq.2 h.symm]; rfl
    · rw [cmp_int_gt.2 h, cmp_int_lt.2 h]; rfl
  trans a b c := by
    rw [cmp_int_lt, cmp_int_lt, cmp_int_lt]; omega

instance {α : Type} [RustOrd α] [LawfulOrd α] : LawfulOrd (Option α) where
  eq_iff a b := by cases a <;> cases b <;> simp [cmp]; exact LawfulOrd.eq_iff _ _
  swap a b := by cases a <;> cases b <;> simp [cmp]; exact LawfulOrd.swap _ _
  trans a b c := by
    cases a <;> cases b <;> cases c <;> simp [cmp]; exact LawfulOrd.trans _ _ _

section
variable {α : Type} [RustOrd α] [LawfulOrd α]

theorem cmp_self (a : α) : cmp a a = .eq := (LawfulOrd.eq_iff a a).2 rfl

theorem cmp_gt_iff {a b : α} : cmp a b = .gt ↔ cmp b a = .lt := by
  rw [← LawfulOrd.swap b a]; cases cmp b a <;> simp

end

instance {α β : Type} [RustOrd α] [LawfulOrd α] [RustOrd β] [LawfulOrd β] : LawfulOrd (α × β) where
  eq_iff a b := by
    have h1 := LawfulOrd.eq_iff a.1 b.1
    have h2 := LawfulOrd.eq_iff a.2 b.2
    simp only [cmp] at *
    rw [Prod.ext_iff, ← h1, ← h2]
    cases RustOrd.cmp a.1 b.1 <;> simp [Ordering.then]
  swap a b := by
    have h1 := LawfulOrd.swap a.1 b.1
    have h2 := LawfulOrd.swap a.2 b.2
    simp only [cmp] at *
    rw [← h1, ← h2]
    cases RustOrd.cmp a.1 b.1 <;> simp [Ordering.then]
  trans a b c := by
    have key : ∀ x y : α × β, cmp x y = .lt ↔ cmp x.1 y.1 = .lt ∨ (x.1 = y.1 ∧ cmp x.2 y.2 = .lt) := by
      intro x y
      rw [← LawfulOrd.eq_iff x.1 y.1]
      show (cmp x.1 y.1).then (cmp x.2 y.2) = .lt ↔ _
      cases cmp x.1 y.1 <;> simp [Ordering.then]
    rw [key, key, key]
    rintro (h1 | ⟨h1, h1'⟩) (h2 | ⟨h2, h2'⟩)
    · exact .inl (LawfulOrd.trans _ _ _ h1 h2)
    · exact .inl (h2 ▸ h1)
    · exact .inl (h1 ▸ h2)
    · exact .inr ⟨h1.trans h2, LawfulOrd.trans _ _ _ h1' h2'⟩

section
variable {α : Type} [RustOrd α] [LawfulOrd α]

theorem rle_iff {a b : α} : rle a b = true ↔ cmp a b = .lt ∨ a = b := by
  rw [← LawfulOrd.eq_iff a b]; unfold rle; cases cmp a b <;> simp

omit [LawfulOrd α] in
theorem rlt_iff {a b : α} : rlt a b = true ↔ cmp a b = .lt := by
  unfold rlt; cases cmp a b <;> simp

theorem rle_refl (a : α) : rle a a = true := rle_iff.2 (.inr rfl)

theorem rle_trans {a b c : α} (h1 : rle a b = true) (h2 : rle b c = true) : rle a c = true := by
  rw [rle_iff] at *
  rcases h1 with h1 | rfl
  · rcases h2 with h2 | rfl
    · exact .inl (LawfulOrd.trans _ _ _ h1 h2)
    · exact .inl h1
  · exact h2

theorem rle_antisymm {a b : α} (h1 : rle a b = true) (h2 : rle b a = true) : a = b := by
  rw [rle_iff] at *
  rcases h1 with h1 | h1
  · rcases h2 with h2 | h2
    · rw [← cmp_gt_iff, h1] at h2; simp at h2
    · exact h2.symm
  · exact h1

theorem rle_total (a b : α) : rle a b = true ∨ rle b a = true := by
  rw [rle_iff, rle_iff]
  rcases h : cmp a b with _ | _ | _
  · exact .inl (.inl rfl)
  · exact .inl (.inr ((LawfulOrd.eq_iff a b).1 h))
  · exact .inr (.inl (cmp_gt_iff.1 h))

theorem rlt_iff_not_rle {a b : α} : rlt a b = true ↔ ¬ rle b a = true := by
  rw [rlt_iff, ← cmp_gt_iff]; unfold rle; simp

theorem rlt_iff_le_ne {a b : α} : rlt a b = true ↔ rle a b = true ∧ a ≠ b := by
  rw [rlt_iff, rle_iff]
  constructor
  · intro h
    refine ⟨.inl h, ?_⟩
    rintro rfl
    rw [cmp_self] at h; simp at h
  · rintro ⟨h | h, h2⟩
    · exact h
    · exact absurd h h2

end

theorem HunChar.ordHelper_injective : ∀ a b : HunChar, a.ordHelper = b.ordHelper → a = b := by
  intro a b
  cases a <;> cases b <;> simp [HunChar.ordHelper, HunChar.code] <;> omega

instance : LawfulOrd HunChar :=
  LawfulOrd.ofInj (β := Nat) HunChar.ordHelper HunChar.ordHelper_injective (fun _ _ => rfl)

instance : LawfulOrd NumericId :=
  LawfulOrd.ofInj (fun a => (a.num, a.suffix))
    (fun a b h => by cases a; cases b; simp at h; simp [h]) (fun _ _ => rfl)

instance : LawfulOrd ArticleId :=
  LawfulOrd.ofInj (fun a => (a.book, a.identifier))
    (fun a b h => by cases a; cases b; simp at h; simp [h]) (fun _ _ => rfl)

instance : LawfulOrd ParagraphId :=
  LawfulOrd.ofInj (fun a => a.id)
    (fun a b h => by cases a; cases b; simp at h; simp [h]) (fun _ _ => rfl)

instance : LawfulOrd PrefixedId :=
  LawfulOrd.ofInj (fun a => (a.pfx, a.chr))
    (fun a b h => by cases a; cases b; simp at h; simp [h]) (fun _ _ => rfl)

instance : LawfulOrd ActId :=
  LawfulOrd.ofInj (fun a => (a.year.val, a.number.val))
    (fun a b h => by
      obtain ⟨⟨_, _⟩, ⟨_, _⟩⟩ := a; obtain ⟨⟨_, _⟩, ⟨_, _⟩⟩ := b; simp at h; simp [h])
    (fun _ _ => rfl)

instance {α : Type} [RustOrd α] [LawfulOrd α] : LawfulOrd (IdRange α) :=
  LawfulOrd.ofInj (fun a => (a.start, a.fin))
    (fun a b h => by cases a; cases b; simp at h; simp [h]) (fun _ _ => rfl)

instance {α β : Type} [RustOrd α] [LawfulOrd α] [RustOrd β] [LawfulOrd β] : LawfulOrd (α ⊕ β) where
  eq_iff a b := by
    cases a <;> cases b <;> simp [cmp] <;> exact LawfulOrd.eq_iff _ _
  swap a b := by
    cases a <;> cases b <;> simp [cmp] <;> exact LawfulOrd.swap _ _
  trans a b c := by
    cases a <;> cases b <;> cases c <;> simp [cmp] <;> exact LawfulOrd.trans _ _ _

end HunLaw
