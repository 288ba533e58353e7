import Verif.Model.Aggregate
/-! Facts about forests and insertion along the last path. -/
namespace Verif.Forest
variable {α : Type}

/-- Document order, each label with the label of its parent. -/
def preorder : Option α → Forest α → List (α × Option α)
  | _, nil => []
  | p, cons a k r => (a, p) :: (preorder (some a) k ++ preorder p r)

/-- Document order. -/
def flatten : Forest α → List α
  | nil => []
  | cons a k r => a :: (flatten k ++ flatten r)

theorem preorder_fst : ∀ (f : Forest α) (p : Option α), (preorder p f).map Prod.fst = flatten f
  | nil, _ => rfl
  | cons a k r, p => by simp [preorder, flatten, preorder_fst k, preorder_fst r]

/-- The labels along the path: last node, its last child, and so on. -/
def spine : Forest α → List α
  | nil => []
  | cons a k nil => a :: spine k
  | cons _ _ (cons b k r) => spine (cons b k r)

theorem preorder_snoc (a : α) : ∀ (f : Forest α) (p : Option α), preorder p (snoc a f) = preorder p f ++ [(a, p)]
  | nil, p => rfl
  | cons b k r, p => by simp [snoc, preorder, preorder_snoc a r p]

theorem spine_snoc (a : α) : ∀ (f : Forest α), spine (snoc a f) = [a]
  | nil => rfl
  | cons b k nil => rfl
  | cons b k (cons c k' r) => by
    have := spine_snoc a (cons c k' r)
    simp only [snoc, spine] at this ⊢
    exact this

theorem snoc_ne_nil (a : α) (f : Forest α) : ∃ b k r, snoc a f = cons b k r := by
  cases f with
  | nil => exact ⟨a, nil, nil, rfl⟩
  | cons b k r => exact ⟨b, k, snoc a r, rfl⟩

theorem insertAt_cons (d : Nat) (a b : α) (k r : Forest α) : ∃ b' k' r', insertAt d a (cons b k r) = cons b' k' r' := by
  cases d with
  | zero => exact ⟨b, k, snoc a r, rfl⟩
  | succ d => cases r with
    | nil => exact ⟨b, insertAt d a k, nil, rfl⟩
    | cons c k' r' => exact ⟨b, k, insertAt (d + 1) a (cons c k' r'), rfl⟩

/-- The parent of a node inserted at depth `d`. -/
def parentAt (p : Option α) (f : Forest α) : Nat → Option α
  | 0 => p
  | d + 1 => (spine f)[d]?

theorem preorder_insertAt : ∀ (f : Forest α) (d : Nat) (a : α) (p : Option α), d ≤ (spine f).length →
    preorder p (insertAt d a f) = preorder p f ++ [(a, parentAt p f d)]
  | f, 0, a, p, _ => by simp only [insertAt, parentAt]; exact preorder_snoc a f p
  | nil, d + 1, a, p, h => absurd h (by simp [spine])
  | cons b k nil, d + 1, a, p, h => by
    have hd : d ≤ (spine k).length := by simpa [spine] using h
    simp only [insertAt, preorder, List.append_nil]
    rw [preorder_insertAt k d a (some b) hd]
    cases d <;> simp [parentAt, spine]
  | cons b k (cons c k' r), d + 1, a, p, h => by
    have := preorder_insertAt (cons c k' r) (d + 1) a p (by simpa [spine] using h)
    simp only [insertAt] at this ⊢
    rw [preorder, this]
    simp [preorder, parentAt, spine]

theorem spine_insertAt : ∀ (f : Forest α) (d : Nat) (a : α), d ≤ (spine f).length →
    spine (insertAt d a f) = (spine f).take d ++ [a]
  | f, 0, a, _ => by simp only [insertAt, List.take_zero, List.nil_append]; exact spine_snoc a f
  | nil, d + 1, a, h => absurd h (by simp [spine])
  | cons b k nil, d + 1, a, h => by
    have hd : d ≤ (spine k).length := by simpa [spine] using h
    simp [insertAt, spine, spine_insertAt k d a hd]
  | cons b k (cons c k' r), d + 1, a, h => by
    have := spine_insertAt (cons c k' r) (d + 1) a (by simpa [spine] using h)
    obtain ⟨b', k'', r', e⟩ := insertAt_cons (d + 1) a c k' r
    simp only [insertAt]
    rw [e] at this ⊢
    simp only [spine]
    exact this

/-- In a list sorted by a key, the last element of the initial part below a bound is the last element
below the bound. -/
theorem sorted_find (key : α → Int) (l : Int) : ∀ (os : List α), os.Pairwise (fun a b => key a < key b) →
    (os.takeWhile (fun x => decide (key x < l))).getLast? = os.reverse.find? (fun x => decide (key x < l)) := by
  intro os
  induction os with
  | nil => intro _; rfl
  | cons o os ih =>
    intro hs
    rw [List.pairwise_cons] at hs
    have ih := ih hs.2
    by_cases h : key o < l
    · simp only [List.takeWhile_cons, h, decide_true, if_true, List.reverse_cons, List.find?_append, ← ih]
      simp [List.getLast?_cons, h]
    · have : os.reverse.find? (fun x => decide (key x < l)) = none := by
        rw [List.find?_eq_none]
        intro x hx
        have := hs.1 x (List.mem_reverse.1 hx)
        simp; omega
      simp [List.takeWhile_cons, h, List.reverse_cons, List.find?_append, this]

end Verif.Forest
