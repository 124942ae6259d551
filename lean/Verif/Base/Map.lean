/-! # Functions changed at one point -/

namespace Gust

/-- Change at one point. -/
def setAt {α β : Type} [DecidableEq α] (f : α → β) (a : α) (b : β) : α → β := fun x => if x = a then b else f x

theorem setAt_same {α β : Type} [DecidableEq α] (f : α → β) (a : α) (b : β) : setAt f a b a = b := by simp [setAt]

theorem setAt_other {α β : Type} [DecidableEq α] (f : α → β) {a x : α} (b : β) (h : x ≠ a) : setAt f a b x = f x := by
  simp [setAt, h]

theorem setAt_eq {α β : Type} [DecidableEq α] (f : α → β) (a : α) (b : β) (x : α) :
    setAt f a b x = if x = a then b else f x := rfl

end Gust
