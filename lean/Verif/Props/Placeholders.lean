import Verif.Model.Placeholders
import Verif.Props.Ids
/-!
C25 — placeholders for already processed elements are restored faithfully.
-/
namespace Verif.C25
open Verif.Placeholders

/-! ### Specification -/

/-- The smallest units of content. -/
inductive U where
  | ch (c : Char)
  | elem (n : Nat)
  | placeholder (ref : Text)
  | missing
deriving DecidableEq

/-- The content before: characters and elements. -/
def before : List Item → List U
  | [] => []
  | .text t :: es => t.map .ch ++ before es
  | .elem n :: es => .elem n :: before es

mutual
/-- The content of a parsed element, in order. -/
def content : Node → List U
  | .ch c => [.ch c]
  | .placeholder ref => [.placeholder ref]
  | .elem n => [.elem n]
  | .missing => [.missing]
  | .group _ ns => contents ns
def contents : List Node → List U
  | [] => []
  | n :: ns => content n ++ contents ns
end

mutual
/-- The elements with elements, without their content. -/
def shape : Node → Node
  | .group k ns => .group k (shapes ns)
  | .ch _ => .missing
  | .placeholder _ => .missing
  | .elem _ => .missing
  | .missing => .missing
def shapes : List Node → List Node
  | [] => []
  | n :: ns => shape n :: shapes ns
end

/-- `out` is a result of parsing `t`: the placeholders and characters of `t` in order, grouped in some way. -/
def Parses (t : Text) (out : List Node) : Prop := contents out = contents (scan t.length t)

/-! ### Lemmas -/

theorem digit_isDigit (c : Char) (h : c.isDigit = true) : digit c = true := by
  simp only [Char.isDigit, Bool.and_eq_true, decide_eq_true_eq] at h
  simp only [digit, Bool.and_eq_true, decide_eq_true_eq]
  exact h

theorem itoa_digits (n : Nat) : ∀ c ∈ itoa n, digit c = true := fun c hc =>
  digit_isDigit c (Nat.isDigit_of_mem_toDigits (by decide) (by decide) hc)

theorem itoa_ne (n : Nat) : itoa n ≠ [] := Nat.toDigits_ne_nil

theorem takeWhile_digits : ∀ (l r : Text), (∀ x ∈ l, digit x = true) → (∀ x ∈ r.head?, digit x = false) →
    (l ++ r).takeWhile digit = l ∧ (l ++ r).dropWhile digit = r
  | [], r, _, hr => by
    cases r with
    | nil => exact ⟨rfl, rfl⟩
    | cons x r =>
      have := hr x (by simp)
      simp [List.takeWhile_cons, List.dropWhile_cons, this]
  | x :: l, r, h, hr => by
    have ih := takeWhile_digits l r (fun y hy => h y (by simp [hy])) hr
    rw [List.cons_append, List.takeWhile_cons, List.dropWhile_cons, h x (by simp), if_pos rfl, if_pos rfl, ih.1, ih.2]
    exact ⟨rfl, rfl⟩

theorem delim_not_digit : digit delim = false := by decide

theorem readRef_ref (n : Nat) (t : Text) : readRef (itoa n ++ delim :: t) = some (itoa n, t) := by
  obtain ⟨h1, h2⟩ := takeWhile_digits (itoa n) (delim :: t) (itoa_digits n) (by simp [delim_not_digit])
  unfold readRef
  rw [h1, h2]
  cases hi : itoa n with
  | nil => exact absurd hi (itoa_ne n)
  | cons d ds => simp

/-- Enough steps. -/
theorem scan_chars : ∀ (t rest : Text) (fuel : Nat), delim ∉ t → t.length ≤ fuel →
    scan fuel (t ++ rest) = t.map .ch ++ scan (fuel - t.length) rest
  | [], rest, fuel, _, _ => by simp
  | c :: t, rest, 0, _, hf => by simp at hf
  | c :: t, rest, fuel + 1, h, hf => by
    have hc : c ≠ delim := by intro e; exact h (by simp [e])
    have ih := scan_chars t rest fuel (fun hm => h (by simp [hm])) (by simp at hf; omega)
    rw [List.cons_append]
    show (if c = delim then _ else Node.ch c :: scan fuel (t ++ rest)) = _
    rw [if_neg hc, ih]
    simp

theorem scan_placeholder (n : Nat) (rest : Text) (fuel : Nat) :
    scan (fuel + 1) (placeholderText (itoa n) ++ rest) = .placeholder (itoa n) :: scan fuel rest := by
  have e : placeholderText (itoa n) ++ rest = delim :: (itoa n ++ delim :: rest) := by simp [placeholderText]
  rw [e]
  show (if delim = delim then (match readRef (itoa n ++ delim :: rest) with
      | some (ref, rest) => Node.placeholder ref :: scan fuel rest
      | none => .ch delim :: scan fuel (itoa n ++ delim :: rest)) else _) = _
  rw [if_pos rfl, readRef_ref]

theorem contents_append : ∀ a b, contents (a ++ b) = contents a ++ contents b
  | [], b => rfl
  | n :: a, b => by
    show content n ++ contents (a ++ b) = (content n ++ contents a) ++ contents b
    rw [contents_append a b, List.append_assoc]

theorem contents_chars : ∀ t : Text, contents (t.map .ch) = t.map .ch
  | [] => rfl
  | c :: t => by
    show [U.ch c] ++ contents (t.map .ch) = _
    rw [contents_chars t]; rfl

/-- What restoring does to the units. -/
def restoreU (s : Store) : U → U
  | .placeholder ref => match s.get ref with
    | some n => .elem n
    | none => .missing
  | u => u

mutual
theorem content_restore (s : Store) : ∀ n : Node, content (restoreOne s n) = (content n).map (restoreU s)
  | .placeholder ref => by
    show content (match s.get ref with
      | some n => .elem n
      | none => .missing) = [match s.get ref with
      | some n => .elem n
      | none => .missing]
    cases s.get ref <;> rfl
  | .group k ns => contents_restore s ns
  | .ch c => rfl
  | .elem n => rfl
  | .missing => rfl
theorem contents_restore (s : Store) : ∀ ns : List Node, contents (restore s ns) = (contents ns).map (restoreU s)
  | [] => rfl
  | n :: ns => by
    show content (restoreOne s n) ++ contents (restore s ns) = (content n ++ contents ns).map _
    rw [content_restore s n, contents_restore s ns, List.map_append]
end

/-- Later additions do not change earlier ones. -/
theorem get_add (s : Store) (n : Nat) (i : Nat) (hi : i ≤ s.seq) : (s.add n).1.get (itoa i) = s.get (itoa i) := by
  have hne : itoa (s.seq + 1) ≠ itoa i := fun e => by have := C14.itoa_inj _ _ e; omega
  unfold Store.add Store.get
  dsimp only
  rw [List.find?_cons]
  have hd : (decide (itoa (s.seq + 1) = itoa i)) = false := decide_eq_false hne
  dsimp only
  rw [hd]
  dsimp only
  congr 1
  induction s.elements with
  | nil => rfl
  | cons p ps ih =>
    rw [List.filter_cons]
    by_cases hp : p.1 = itoa (s.seq + 1)
    · have h1 : (decide (p.1 ≠ itoa (s.seq + 1))) = false := decide_eq_false (by simp [hp])
      have h2 : (decide (p.1 = itoa i)) = false := decide_eq_false (by rw [hp]; exact hne)
      rw [h1]
      rw [List.find?_cons, h2]
      exact ih
    · have h1 : (decide (p.1 ≠ itoa (s.seq + 1))) = true := decide_eq_true hp
      rw [h1, if_pos rfl, List.find?_cons, List.find?_cons, ih]

theorem get_added (s : Store) (n : Nat) : (s.add n).1.get (s.add n).2 = some n := by
  unfold Store.add Store.get
  dsimp only
  rw [List.find?_cons]
  simp

theorem loop_get : ∀ (es : List Item) (s : Store) (i : Nat), i ≤ s.seq → (serializeLoop s es).2.get (itoa i) = s.get (itoa i)
  | [], s, i, _ => rfl
  | .text t :: es, s, i, hi => loop_get es s i hi
  | .elem n :: es, s, i, hi => by
    show (serializeLoop (s.add n).1 es).2.get (itoa i) = _
    rw [loop_get es (s.add n).1 i (by show i ≤ s.seq + 1; omega), get_add s n i hi]

theorem loop_scan : ∀ (es : List Item) (s : Store) (fuel : Nat), (∀ t, .text t ∈ es → delim ∉ t) → (serializeLoop s es).1.length ≤ fuel →
    (contents (scan fuel (serializeLoop s es).1)).map (restoreU (serializeLoop s es).2) = before es
  | [], s, fuel, _, _ => by
    show (contents (scan fuel [])).map _ = []
    cases fuel <;> rfl
  | .text t :: es, s, fuel, h, hf => by
    have hf' : (t ++ (serializeLoop s es).1).length ≤ fuel := hf
    rw [List.length_append] at hf'
    show (contents (scan fuel (t ++ (serializeLoop s es).1))).map (restoreU (serializeLoop s es).2) = t.map U.ch ++ before es
    rw [scan_chars t _ fuel (h t (by simp)) (by omega), contents_append, contents_chars, List.map_append,
      loop_scan es s (fuel - t.length) (fun u hu => h u (by simp [hu])) (by omega)]
    congr 1
    rw [List.map_map]
    rfl
  | .elem n :: es, s, 0, h, hf => by
    have hf' : (placeholderText (itoa (s.seq + 1)) ++ (serializeLoop (s.add n).1 es).1).length ≤ 0 := hf
    simp [placeholderText] at hf'
  | .elem n :: es, s, fuel + 1, h, hf => by
    have hf' : (placeholderText (itoa (s.seq + 1)) ++ (serializeLoop (s.add n).1 es).1).length ≤ fuel + 1 := hf
    simp [placeholderText] at hf'
    have hl : ((serializeLoop (s.add n).1 es).1).length ≤ fuel := by omega
    show (contents (scan (fuel + 1) (placeholderText (itoa (s.seq + 1)) ++ (serializeLoop (s.add n).1 es).1))).map
      (restoreU (serializeLoop (s.add n).1 es).2) = U.elem n :: before es
    rw [scan_placeholder]
    show restoreU _ (U.placeholder (itoa (s.seq + 1))) :: (contents (scan fuel (serializeLoop (s.add n).1 es).1)).map _ = _
    rw [loop_scan es (s.add n).1 fuel (fun u hu => h u (by simp [hu])) hl]
    congr 1
    show (match (serializeLoop (s.add n).1 es).2.get (itoa (s.seq + 1)) with
      | some n => U.elem n
      | none => .missing) = _
    rw [loop_get es (s.add n).1 (s.seq + 1) (Nat.le_refl _)]
    have := get_added s n
    have e : (s.add n).2 = itoa (s.seq + 1) := rfl
    rw [e] at this
    rw [this]

/-! ### Theorems -/

/-- C25: if the text does not contain the delimiter U+FFFD, then whatever groups parsing forms, restoring yields the content from
before: the same text, and each element exactly where it was. -/
theorem restored (es : List Item) (h : ∀ t, .text t ∈ es → delim ∉ t) (out : List Node) (hp : Parses (serialize es).1 out) :
    contents (restore (serialize es).2 out) = before es := by
  rw [contents_restore, hp]
  exact loop_scan es ⟨0, []⟩ _ h (Nat.le_refl _)

mutual
theorem shape_restore (s : Store) : ∀ n : Node, shape (restoreOne s n) = shape n
  | .placeholder ref => by
    show shape (match s.get ref with
      | some n => .elem n
      | none => .missing) = .missing
    cases s.get ref <;> rfl
  | .group k ns => by
    show Node.group k (shapes (restore s ns)) = .group k (shapes ns)
    rw [shapes_restore s ns]
  | .ch c => rfl
  | .elem n => rfl
  | .missing => rfl
theorem shapes_restore (s : Store) : ∀ ns : List Node, shapes (restore s ns) = shapes ns
  | [] => rfl
  | n :: ns => by
    show shape (restoreOne s n) :: shapes (restore s ns) = shape n :: shapes ns
    rw [shape_restore s n, shapes_restore s ns]
end

/-- C25: restoring does not change what parsing has grouped. -/
theorem groups_kept (s : Store) (out : List Node) : shapes (restore s out) = shapes out := shapes_restore s out

/-! ### Examples and findings -/

example : (serialize [.text ['a'], .elem 7, .elem 8, .text ['1']]).1 = ['a', delim, '1', delim, delim, '2', delim, '1'] := by decide
example : Parses (serialize [.text ['a'], .elem 7, .elem 8, .text ['1']]).1
    [.ch 'a', .group 5 [.placeholder ['1']], .placeholder ['2'], .ch '1'] := rfl
example : restore (serialize [.text ['a'], .elem 7, .elem 8, .text ['1']]).2
    [.ch 'a', .group 5 [.placeholder ['1']], .placeholder ['2'], .ch '1'] = [.ch 'a', .group 5 [.elem 7], .elem 8, .ch '1'] := rfl

/-- Finding: a document that contains U+FFFD, digits and U+FFFD itself has that text replaced with another element of the same
paragraph, or with a nil value (that the renderer rejects). -/
theorem finding_delimiter_in_text :
    (∃ out, Parses (serialize [.text [delim, '1', delim], .elem 7]).1 out ∧
      contents (restore (serialize [.text [delim, '1', delim], .elem 7]).2 out) = [.elem 7, .elem 7]) ∧
    (∃ out, Parses (serialize [.text [delim, '1', delim]]).1 out ∧
      contents (restore (serialize [.text [delim, '1', delim]]).2 out) = [.missing]) :=
  ⟨⟨[.placeholder ['1'], .placeholder ['1']], rfl, rfl⟩, ⟨[.placeholder ['1']], rfl, rfl⟩⟩

end Verif.C25
