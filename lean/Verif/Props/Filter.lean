import Verif.Model.Filter
/-!
C20: filtering removes comments and blank lines and nothing else.
-/
namespace Verif.C20
open Verif.Filter

/-! ## Specification -/

/-- A tag of the serialized document. -/
inductive Tag where
  | leaf (n : Nat)
  | open_ (what : Nat) (n : Nat)
  | close
  | next
deriving DecidableEq, Repr

mutual
/-- The serialization of an element as a reader is meant to see it: comments, comment blocks, blank lines and empty document
headers do not show. -/
def seen : FEl → List Tag
  | .blank => []
  | .comment _ => []
  | .leaf n => [.leaf n]
  | .block true _ _ => []
  | .block false n es => .open_ 0 n :: (seenAll es ++ [.close])
  | .list n items => .open_ 1 n :: (seenAll items ++ [.close])
  | .parent n es => .open_ 2 n :: (seenAll es ++ [.close])
  | .table n h rows f => .open_ 3 n :: (seenAll h ++ .next :: (seenAll rows ++ .next :: (seenAll f ++ [.close])))
  | .header t a es =>
    if t = false ∧ a = false ∧ seenAll es = [] then []
    else .open_ 4 (t.toNat + 2 * a.toNat) :: (seenAll es ++ [.close])
/-- The serialization of a sequence. -/
def seenAll : List FEl → List Tag
  | [] => []
  | e :: es => seen e ++ seenAll es
end

mutual
/-- Whether a comment, comment block, blank line or empty document header is left anywhere in an element. -/
def clean : FEl → Bool
  | .blank => false
  | .comment _ => false
  | .leaf _ => true
  | .block c _ es => !c && cleanAll es
  | .list _ items => cleanAll items
  | .parent _ es => cleanAll es
  | .table _ h rows f => cleanAll h && cleanAll rows && cleanAll f
  | .header t a es => (t || a || !es.isEmpty) && cleanAll es
/-- The same for a sequence. -/
def cleanAll : List FEl → Bool
  | [] => true
  | e :: es => clean e && cleanAll es
end

mutual
/-- What the grammar guarantees (parser.peg:1576-1720, 2610-2660): the elements of a list are list elements, and the
cells of tables (header, footer) contain neither comments nor blank lines. -/
def wellFormed : FEl → Bool
  | .blank => true
  | .comment _ => true
  | .leaf _ => true
  | .block _ _ es => wellFormedAll es
  | .list _ items => items.all (fun i => match i with | .parent _ _ => true | _ => false) && wellFormedAll items
  | .parent _ es => wellFormedAll es
  | .table _ h rows f => cleanAll h && cleanAll f && wellFormedAll rows
  | .header _ _ es => wellFormedAll es
/-- The same for a sequence. -/
def wellFormedAll : List FEl → Bool
  | [] => true
  | e :: es => wellFormed e && wellFormedAll es
end

/-! ## What remains is clean -/

theorem clean_nonempty : ∀ e, clean e = true → seen e ≠ []
  | .blank, h => by simp [clean] at h
  | .comment _, h => by simp [clean] at h
  | .leaf n, _ => by simp [seen]
  | .block true _ _, h => by simp [clean] at h
  | .block false _ _, _ => by simp [seen]
  | .list _ _, _ => by simp [seen]
  | .parent _ _, _ => by simp [seen]
  | .table _ _ _ _, _ => by simp [seen]
  | .header t a es, h => by
    simp only [clean, Bool.and_eq_true, Bool.or_eq_true] at h
    simp only [seen]
    split
    · rename_i hc
      obtain ⟨rfl, rfl, hs⟩ := hc
      cases es with
      | nil => simp at h
      | cons e es =>
        simp only [cleanAll, Bool.and_eq_true] at h
        simp only [seenAll, List.append_eq_nil_iff] at hs
        exact absurd hs.1 (clean_nonempty e h.2.1)
    · simp

theorem cleanAll_nonempty (es : List FEl) (h : cleanAll es = true) : seenAll es = [] ↔ es = [] := by
  cases es with
  | nil => simp [seenAll]
  | cons e es =>
    simp only [cleanAll, Bool.and_eq_true] at h
    simp [seenAll, clean_nonempty e h.1]

mutual
theorem inside_clean : ∀ e, wellFormed e = true → isNoise e = false → isEmptyHeader (inside e) = false → clean (inside e) = true
  | .blank, _, h, _ => by simp [isNoise] at h
  | .comment _, _, h, _ => by simp [isNoise] at h
  | .leaf n, _, _, _ => rfl
  | .block c n es, hw, h, _ => by
    simp only [isNoise] at h
    simp only [wellFormed] at hw
    simp [inside, clean, h, filterOut_clean es hw]
  | .list n items, hw, _, _ => by
    simp only [wellFormed, Bool.and_eq_true] at hw
    simp only [inside, clean]
    exact insideAll_clean items hw.1 hw.2
  | .parent n es, hw, _, _ => by
    simp only [wellFormed] at hw
    simp [inside, clean, filterOut_clean es hw]
  | .table n a rows f, hw, _, _ => by
    simp only [wellFormed, Bool.and_eq_true] at hw
    simp [inside, clean, filterOut_clean rows hw.2, hw.1.1, hw.1.2]
  | .header t a es, hw, _, h => by
    simp only [wellFormed] at hw
    simp only [inside, isEmptyHeader] at h
    simp only [inside, clean, filterOut_clean es hw, Bool.and_true]
    cases t <;> cases a <;> simp_all

theorem insideAll_clean : ∀ es, es.all (fun i => match i with | .parent _ _ => true | _ => false) = true → wellFormedAll es = true →
    cleanAll (insideAll es) = true
  | [], _, _ => rfl
  | e :: es, h, hw => by
    simp only [List.all_cons, Bool.and_eq_true] at h
    simp only [wellFormedAll, Bool.and_eq_true] at hw
    simp only [insideAll, cleanAll, insideAll_clean es h.2 hw.2, Bool.and_true]
    have h1 := h.1
    cases e with
    | parent n es' => exact inside_clean (.parent n es') hw.1 rfl rfl
    | _ => simp at h1

theorem filterOut_clean : ∀ es, wellFormedAll es = true → cleanAll (filterOut es) = true
  | [], _ => rfl
  | e :: es, hw => by
    simp only [wellFormedAll, Bool.and_eq_true] at hw
    simp only [filterOut]
    split
    · exact filterOut_clean es hw.2
    · rename_i hn
      split
      · exact filterOut_clean es hw.2
      · rename_i he
        simp only [cleanAll, filterOut_clean es hw.2, Bool.and_true]
        exact inside_clean e hw.1 (by simpa using hn) (by simpa using he)
end

/-- C20, removal: after filtering, no comment, comment block, blank line or empty document header remains, at any depth. -/
theorem nothing_unwanted_remains (es : List FEl) (h : wellFormedAll es = true) : cleanAll (filterOut es) = true :=
  filterOut_clean es h

/-! ## Nothing else is removed -/

theorem seen_noise : ∀ e, isNoise e = true → seen e = []
  | .blank, _ => rfl
  | .comment _, _ => rfl
  | .block true _ _, _ => rfl
  | .block false _ _, h => by simp [isNoise] at h
  | .leaf _, h => by simp [isNoise] at h
  | .list _ _, h => by simp [isNoise] at h
  | .parent _ _, h => by simp [isNoise] at h
  | .table _ _ _ _, h => by simp [isNoise] at h
  | .header _ _ _, h => by simp [isNoise] at h

theorem seen_emptyHeader (e : FEl) (h : isEmptyHeader e = true) : seen e = [] := by
  cases e with
  | header t a es =>
    simp only [isEmptyHeader, Bool.and_eq_true, Bool.not_eq_true', List.isEmpty_iff] at h
    obtain ⟨⟨rfl, rfl⟩, rfl⟩ := h
    simp [seen, seenAll]
  | _ => simp [isEmptyHeader] at h

mutual
theorem inside_seen : ∀ e, seen (inside e) = seen e
  | .blank => rfl
  | .comment _ => rfl
  | .leaf n => rfl
  | .block true n es => by simp [inside, seen]
  | .block false n es => by simp [inside, seen, filterOut_seen es]
  | .list n items => by simp [inside, seen, insideAll_seen items]
  | .parent n es => by simp [inside, seen, filterOut_seen es]
  | .table n a rows f => by simp [inside, seen, filterOut_seen rows]
  | .header t a es => by simp [inside, seen, filterOut_seen es]

theorem insideAll_seen : ∀ es, seenAll (insideAll es) = seenAll es
  | [] => rfl
  | e :: es => by simp [insideAll, seenAll, inside_seen e, insideAll_seen es]

theorem filterOut_seen : ∀ es, seenAll (filterOut es) = seenAll es
  | [] => rfl
  | e :: es => by
    simp only [filterOut]
    split
    · rename_i hn
      simp [seenAll, seen_noise e hn, filterOut_seen es]
    · split
      · rename_i he
        have := seen_emptyHeader _ he
        rw [inside_seen e] at this
        simp [seenAll, this, filterOut_seen es]
      · simp [seenAll, inside_seen e, filterOut_seen es]
end

/-- C20, content: what is meant to be seen of a document is the same before and after filtering: all other elements remain,
in order and in place. -/
theorem everything_else_remains (es : List FEl) : seenAll (filterOut es) = seenAll es := filterOut_seen es

/-! ## Idempotence -/

mutual
theorem inside_fixed : ∀ e, clean e = true → inside e = e
  | .blank, _ => rfl
  | .comment _, _ => rfl
  | .leaf n, _ => rfl
  | .block c n es, h => by simp only [clean, Bool.and_eq_true] at h; simp [inside, filterOut_fixed es h.2]
  | .list n items, h => by simp only [clean] at h; simp [inside, insideAll_fixed items h]
  | .parent n es, h => by simp only [clean] at h; simp [inside, filterOut_fixed es h]
  | .table n a rows f, h => by simp only [clean, Bool.and_eq_true] at h; simp [inside, filterOut_fixed rows h.1.2]
  | .header t a es, h => by simp only [clean, Bool.and_eq_true] at h; simp [inside, filterOut_fixed es h.2]

theorem insideAll_fixed : ∀ es, cleanAll es = true → insideAll es = es
  | [], _ => rfl
  | e :: es, h => by
    simp only [cleanAll, Bool.and_eq_true] at h
    simp [insideAll, inside_fixed e h.1, insideAll_fixed es h.2]

theorem filterOut_fixed : ∀ es, cleanAll es = true → filterOut es = es
  | [], _ => rfl
  | e :: es, h => by
    simp only [cleanAll, Bool.and_eq_true] at h
    have hn : isNoise e = false := by
      cases e <;> simp_all [clean, isNoise]
    have he : isEmptyHeader e = false := by
      cases e with
      | header t a es' =>
        have := h.1
        simp only [clean, Bool.and_eq_true] at this
        simp only [isEmptyHeader]
        cases t <;> cases a <;> simp_all
      | _ => rfl
    simp only [filterOut, hn, inside_fixed e h.1, he, filterOut_fixed es h.2]
    simp
end

/-- C20, clean documents are left alone: filtering changes nothing when there is nothing to remove. -/
theorem clean_unchanged (es : List FEl) (h : cleanAll es = true) : filterOut es = es := filterOut_fixed es h

/-- C20, idempotence: filtering twice is filtering once. -/
theorem idempotent (es : List FEl) (h : wellFormedAll es = true) : filterOut (filterOut es) = filterOut es :=
  clean_unchanged _ (nothing_unwanted_remains es h)

/-! ## Examples -/

/-- A document with comments at several depths. -/
def doc1 : List FEl := [.header false false [.comment 1], .blank, .parent 1 [.leaf 1, .comment 2, .leaf 2],
  .list 2 [.parent 3 [.parent 4 [.leaf 5, .comment 6]], .parent 7 [.blank, .block true 8 [.leaf 9], .block false 10 [.blank, .leaf 11]]],
  .table 12 [.parent 13 [.leaf 14]] [.parent 15 [.parent 16 [.leaf 17, .comment 18]]] []]
example : wellFormedAll doc1 = true := by rfl
example : filterOut doc1 = [.parent 1 [.leaf 1, .leaf 2],
  .list 2 [.parent 3 [.parent 4 [.leaf 5]], .parent 7 [.block false 10 [.leaf 11]]],
  .table 12 [.parent 13 [.leaf 14]] [.parent 15 [.parent 16 [.leaf 17]]] []] := by rfl

end Verif.C20
