import Verif.Bytes

/-! # What it means for six comparison operators to be consistent with an order -/

namespace Ptl

variable {α : Type}

/-- the six operators `cmp` are consistent with each other and `<` is a strict weak order -/
structure WeakOps (cmp : Cmp → α → α → Bool) : Prop where
  strict : StrictWeak (cmp .lt)
  gt : ∀ a b, cmp .gt a b = cmp .lt b a
  le : ∀ a b, cmp .le a b = !cmp .lt b a
  ge : ∀ a b, cmp .ge a b = !cmp .lt a b
  eq : ∀ a b, cmp .eq a b = (!cmp .lt a b && !cmp .lt b a)
  ne : ∀ a b, cmp .ne a b = !cmp .eq a b

/-- the six operators are consistent with a total order: in addition, `==` is equality -/
structure TotalOps (cmp : Cmp → α → α → Bool) : Prop extends WeakOps cmp where
  same : ∀ a b, cmp .eq a b = true ↔ a = b

theorem WeakOps.comap {β : Type} {cmp : Cmp → α → α → Bool} (h : WeakOps cmp) (f : β → α) : WeakOps fun c a b => cmp c (f a) (f b) :=
  ⟨⟨fun _ => h.strict.irrefl _, fun _ _ _ => h.strict.trans _ _ _, fun _ _ _ => h.strict.incomp _ _ _⟩, fun _ _ => h.gt _ _,
    fun _ _ => h.le _ _, fun _ _ => h.ge _ _, fun _ _ => h.eq _ _, fun _ _ => h.ne _ _⟩

/-- the six operators on natural numbers -/
def natCmp (c : Cmp) (a b : Nat) : Bool :=
  match c with
  | .lt => decide (a < b)
  | .le => decide (a ≤ b)
  | .gt => decide (b < a)
  | .ge => decide (b ≤ a)
  | .eq => decide (a = b)
  | .ne => !decide (a = b)

theorem natCmp_total : TotalOps natCmp := by
  refine ⟨⟨⟨?_, ?_, ?_⟩, ?_, ?_, ?_, ?_, ?_⟩, ?_⟩
  · intro a; simp [natCmp]
  · intro a b c; simp only [natCmp, decide_eq_true_eq]; omega
  · intro a b c; simp only [natCmp, decide_eq_false_iff_not]; omega
  · intro a b; rfl
  · intro a b; simp only [natCmp, ← decide_not, decide_eq_decide]; omega
  · intro a b; simp only [natCmp, ← decide_not, decide_eq_decide]; omega
  · intro a b; simp only [natCmp, ← decide_not, ← Bool.decide_and, decide_eq_decide]; omega
  · intro a b; rfl
  · intro a b; simp [natCmp]

end Ptl
