import Verif.Props.RefDeclare
/-!
# C67 — Documents with declarations, in fragments
-/
namespace Verif
namespace C67
open Peg Grammar Actions Referenced FragmentLoop
open Paragraphs (Line)
open C59 (Cut joinLF_append unlines_joinLF)
open Walk (Any)

variable {σ : Type} {S : Sem σ} {A : Peg.Code σ} {t z : Text}

/-- The document without the blank line at its end. -/
def trimmed (xs : List Item) : List Item :=
  match xs.getLast? with
  | some (.blank []) => xs.dropLast
  | _ => xs

/-- The document, with `z` at the end of the last line. -/
def whole (z : Text) : List Item → Text
  | [] => []
  | [x] => joinLF x.lines ++ z
  | x :: xs => joinLF x.lines ++ '\n' :: whole z xs

/-- The last line is not blank, or has an end. -/
def Closed (z : Text) (xs : List Item) : Prop := z = [] → xs.getLast? ≠ some (.blank [])

theorem closed_tail {x : Item} {xs : List Item} (h : Closed z (x :: xs)) : Closed z xs := by
  cases xs with
  | nil => exact fun _ h => nomatch h
  | cons y xs => exact fun hz hl => h hz (by rw [List.getLast?_cons_cons]; exact hl)

theorem whole_cons (hz : Cut z []) (x : Item) (xs : List Item) (hc : Closed z (x :: xs)) : ∃ z', Cut z' (whole z xs) ∧
    whole z (x :: xs) = joinLF x.lines ++ z' ∧ (x = .blank [] → z' ≠ []) := by
  cases xs with
  | nil => exact ⟨z, hz, rfl, fun hb h => hc h (by rw [hb]; rfl)⟩
  | cons y xs => exact ⟨_, .line, rfl, fun _ h => nomatch h⟩

theorem ends_whole (hz : Cut z []) {alnum : Char → Bool} : ∀ {xs : List Item}, Good alnum xs → Closed z xs → (match xs with
    | [] => True
    | .blank _ :: _ => True
    | _ => False) → C59.Ends (whole z xs)
  | [], _, _, _ => .inl rfl
  | .blank w :: bs, h, hc, _ => by
    obtain ⟨z', hz', e, hn⟩ := whole_cons hz _ bs hc
    refine .inr ⟨w, z', _, e, hz', ?_, h.1⟩
    rw [e]
    cases w with
    | nil => exact hn rfl
    | cons c w => exact fun h => nomatch h
  | .para _ _ :: _, _, _, h => h.elim
  | .declare _ _ _ :: _, _, _, h => h.elim
  | .reset _ _ _ :: _, _, _, h => h.elim

theorem cut_length (hz : Cut z t) : t.length ≤ z.length := by
  cases hz
  · simp
  · exact Nat.le_refl _

/-- One fragment for each item. -/
theorem itemFragment (hS : C59.Code S) (hA : Obeys A) (hE : ∀ s st t, (S.pred 102 s st t).1 = true) (hz : Cut z []) {x : Item} {xs : List Item}
    (h : Good (C59.alnum S) (x :: xs)) (hc : Closed z (x :: xs)) {st : Text} :
    Exactly grammar S A st (.rule R.DocumentFragment) (whole z (x :: xs)) [element x] (whole z xs) := by
  obtain ⟨z', hz', e, hn⟩ := whole_cons hz _ xs hc
  rw [e]
  have hC : Ascii S := hS.ascii
  have hc' := closed_tail hc
  cases x with
  | para l ls =>
    obtain ⟨⟨h1, h2, h3, _⟩, _, h5, h6⟩ := h
    have := C59.paraFragment (l := l.line) (ls := ls.map TLine.line) (st := st) hS hA h1 h2 (fun y hy => by
      obtain ⟨y', hy', rfl⟩ := List.mem_map.mp hy
      exact h3 y' hy') hz' (C59.never_others (ends_whole hz h6 hc' h5))
    have el : (Item.para l ls).lines = (Paragraphs.Block.para l.line (ls.map TLine.line)).lines := by
      simp [Item.lines, Paragraphs.Block.lines]
    rw [el]
    exact this
  | blank w =>
    refine C59.blankFragment hS hA h.1 hz' ?_
    cases w with
    | nil => exact hn rfl
    | cons c w => exact fun h => nomatch h
  | declare n gap v =>
    obtain ⟨⟨h1, _, h3, h4, h5⟩, _⟩ := h
    have el : joinLF (Item.declare n gap v).lines ++ z' = ':' :: (n.toList ++ ':' :: (gap ++ (written v ++ z'))) := by
      show ":".toList ++ n.toList ++ ":".toList ++ gap ++ written v ++ z' = _
      simp
    rw [el]
    refine colonFragment hS hA ?_ (fun st => .inl (declaration hA hE hC hz' h1 h3 h4 h5))
    have := cut_length hz'
    simp only [List.length_cons, List.length_append]; omega
  | reset n before trail =>
    obtain ⟨⟨h1, _, h3⟩, _⟩ := h
    have hr := fun st => reset (S := S) (A := A) (before := before) (st := st) hA hC hz' h1 h3
    obtain ⟨y, el⟩ : ∃ y, joinLF (Item.reset n before trail).lines ++ z' = ':' :: (y ++ z') := by
      cases before
      · exact ⟨n.toList ++ "!:".toList ++ trail, by show ":".toList ++ n.toList ++ "!:".toList ++ trail ++ z' = _; simp⟩
      · exact ⟨'!' :: n.toList ++ ":".toList ++ trail, by show ":!".toList ++ n.toList ++ ":".toList ++ trail ++ z' = _; simp⟩
    rw [el] at hr ⊢
    refine colonFragment hS hA ?_ (fun st => .inr (hr st))
    have := cut_length hz'
    simp only [List.length_cons, List.length_append]; omega

theorem good_tail {alnum : Char → Bool} {x : Item} {xs : List Item} (h : Good alnum (x :: xs)) : Good alnum xs := by
  cases x with
  | para l ls => exact h.2.2.2
  | blank w => exact h.2
  | declare n g v => exact h.2
  | reset n b t => exact h.2

theorem element_single (x : Item) : elementsOf (element x) = [element x] := by cases x <;> rfl

theorem whole_ne (hz : Cut z []) {alnum : Char → Bool} {x : Item} {xs : List Item} (hg : Good alnum (x :: xs)) (hc : Closed z (x :: xs)) :
    whole z (x :: xs) ≠ [] := by
  obtain ⟨z', hz', e, hn⟩ := whole_cons hz _ xs hc
  rw [e]
  cases x with
  | blank w => cases w with
    | nil => exact hn rfl
    | cons c w => exact fun h => nomatch h
  | para l ls =>
    obtain ⟨c, x, hx, _⟩ := hg.1.2.1.first
    cases ls <;> simp [Item.lines, joinLF, ‹l.line.full = c :: x›]
  | declare n g v => exact fun h => nomatch h
  | reset n b t => cases b <;> exact fun h => nomatch h

theorem loop_whole (hS : C59.Code S) (hA : Obeys A) (hE : ∀ s st t, (S.pred 102 s st t).1 = true) (failed : σ → Bool) {depth : Nat} (hz : Cut z []) :
    ∀ {rounds : Nat} {s : σ} {xs : List Item} {o : OutcomeV}, Good (C59.alnum S) xs → Closed z xs →
      loopV S A failed depth rounds s (whole z xs) = some o →
      o.stop = .reported ∨ o = ⟨xs.map (fun x => [element x]), .endOfDocument, []⟩
  | 0, _, _, _, _, _, h => nomatch h
  | _ + 1, _, [], o, _, _, h => by cases h; exact .inr rfl
  | rounds + 1, s, b :: bs, o, hg, hc, h => by
    have hx := itemFragment hS hA hE hz hg hc (st := whole z (b :: bs))
    have hc' := closed_tail hc
    obtain ⟨c, t, e⟩ := List.exists_cons_of_ne_nil (whole_ne hz hg hc)
    rw [e] at h hx
    unfold loopV at h
    cases hr : runV grammar S A depth (.rule R.DocumentFragment) (c :: t) s (c :: t) with
    | none => rw [hr] at h; cases h
    | some q =>
      rw [hr] at h
      have hp := hx s q ⟨depth, hr⟩
      cases q with
      | fail s' => cases hp
      | ok s' v u =>
        cases hp
        dsimp only at h
        split at h
        · cases h; exact .inl rfl
        · split at h
          · next heq => cases b <;> cases heq
          · cases hl : loopV S A failed depth rounds s' (whole z bs) with
            | none => rw [hl] at h; cases h
            | some o' =>
              rw [hl] at h
              cases h
              rcases loop_whole hS hA hE failed hz (good_tail hg) hc' hl with ih | rfl
              · exact .inl ih
              · refine .inr ?_
                rw [List.flatMap_cons, List.flatMap_nil, element_single]
                rfl

theorem lines_ne (x : Item) : x.lines ≠ [] := by
  cases x with
  | reset n b t => cases b <;> exact fun h => nomatch h
  | _ => exact fun h => nomatch h

theorem lines_cons_ne (x : Item) (xs : List Item) : lines (x :: xs) ≠ [] := by
  intro h
  exact lines_ne x (List.append_eq_nil_iff.mp (show x.lines ++ lines xs = [] from h)).1

theorem whole_eq (z : Text) : ∀ (xs : List Item), xs ≠ [] → whole z xs = joinLF (lines xs) ++ z
  | [], h => absurd rfl h
  | [x], _ => by
    show _ = joinLF (x.lines ++ []) ++ z
    rw [List.append_nil]
    rfl
  | x :: y :: xs, _ => by
    have ih := whole_eq z (y :: xs) (fun h => nomatch h)
    show joinLF x.lines ++ '\n' :: whole z (y :: xs) = joinLF (x.lines ++ lines (y :: xs)) ++ z
    rw [ih, joinLF_append _ _ (lines_ne x) (lines_cons_ne y xs)]
    simp

theorem good_dropLast {alnum : Char → Bool} : ∀ {xs : List Item}, Good alnum xs → Good alnum xs.dropLast
  | [], h => h
  | [_], _ => trivial
  | .blank w :: b :: bs, h => ⟨h.1, good_dropLast (xs := b :: bs) h.2⟩
  | .declare n g v :: b :: bs, h => ⟨h.1, good_dropLast (xs := b :: bs) h.2⟩
  | .reset n g v :: b :: bs, h => ⟨h.1, good_dropLast (xs := b :: bs) h.2⟩
  | .para l ls :: b :: bs, h => by
    refine ⟨h.1, h.2.1, ?_, good_dropLast (xs := b :: bs) h.2.2.2⟩
    have h4 := h.2.2.1
    cases bs with
    | nil => trivial
    | cons b' bs => cases b with
      | blank w => trivial
      | para l ls => exact h4
      | declare n g v => exact h4
      | reset n g v => exact h4

theorem trimmed_good {alnum : Char → Bool} {xs : List Item} (h : Good alnum xs) : Good alnum (trimmed xs) := by
  unfold trimmed
  split
  · exact good_dropLast h
  · exact h

/-- The items without the last one, if it is a blank line. -/
theorem trimmed_split (xs : List Item) : trimmed xs = xs ∨ xs = trimmed xs ++ [.blank []] := by
  unfold trimmed
  split
  · next h => exact .inr (List.dropLast_append_getLast? _ h).symm
  · exact .inl rfl

theorem joined_whole (xs : List Item) : ∃ z, Cut z [] ∧ joinLF (lines xs) = whole z (trimmed xs) ∧ Closed z (trimmed xs) := by
  unfold trimmed
  split
  · next h =>
    obtain ⟨as, rfl⟩ : ∃ as, xs = as ++ [.blank []] := ⟨xs.dropLast, (List.dropLast_append_getLast? _ h).symm⟩
    rw [List.dropLast_concat]
    refine ⟨['\n'], .line, ?_, fun h => nomatch h⟩
    cases as with
    | nil => rfl
    | cons b as =>
      rw [whole_eq _ (b :: as) (fun h => nomatch h)]
      have : lines (b :: as ++ [.blank []]) = lines (b :: as) ++ [[]] := by simp [lines, Item.lines]
      rw [this, joinLF_append _ [[]] (lines_cons_ne b as) (fun h => nomatch h)]
      rfl
  · next h =>
    refine ⟨[], .eof, ?_, fun _ hl => h hl⟩
    cases xs with
    | nil => rfl
    | cons b bs => rw [whole_eq _ (b :: bs) (fun h => nomatch h), List.append_nil]

/-- The items of a document, of the text that preprocessing gives: one fragment for each. -/
theorem items_parsed (hS : C59.Code S) (hA : Obeys A) (hE : ∀ s st t, (S.pred 102 s st t).1 = true) {xs : List Item} (hg : Good (C59.alnum S) xs) (s : σ) :
    ∃ depth rounds, loopV S A (fun _ => false) depth rounds s (joinLF (lines xs)) = some ⟨(trimmed xs).map (fun x => [element x]), .endOfDocument, []⟩ := by
  obtain ⟨depth, rounds, o, h⟩ := C59.loopV_ends (A := A) hS.progress (fun _ => false) s (joinLF (lines xs))
  refine ⟨depth, rounds, ?_⟩
  obtain ⟨z, hz, e, hc⟩ := joined_whole xs
  rw [e] at h ⊢
  rcases loop_whole hS hA hE _ hz (trimmed_good hg) hc h with h' | rfl
  · exact absurd h' (C59.never_reported _ _ _ _ h)
  · exact h

end C67
end Verif
