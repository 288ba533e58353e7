import Verif.Props.HeaderPage
import Verif.Props.HeaderLoop
import Verif.Props.Sectioned

/-!
# C66, continued — Headers in the stages between parser and renderer
-/
namespace Verif
namespace C66
open Headed
open Walk (Any)
open Sectioned (Item)
open Rend hiding Item bind_ok Author expandRevision

/-! ### Substitutions -/

theorem decls_substituted (W : Walk.World) (opts : List Walk.Opt) (h : Head) (c : Walk.Ctx) : ∃ c', Walk.substAll W c opts (decls h) = .ok (decls h, c') := by
  unfold decls
  by_cases ha : h.authors = []
  · rw [if_pos ha]
    cases h.revision with
    | none => exact ⟨_, rfl⟩
    | some v => exact ⟨_, rfl⟩
  · rw [if_neg ha]
    cases h.revision with
    | none => exact ⟨_, rfl⟩
    | some v => exact ⟨_, rfl⟩

theorem walk_authors (h : Head) : ∃ l, Walk.authorsOf (decls h) none = .ok l := by
  unfold decls
  by_cases ha : h.authors = []
  · rw [if_pos ha]
    cases h.revision with
    | none => exact ⟨_, rfl⟩
    | some v => exact ⟨_, rfl⟩
  · rw [if_neg ha]
    exact ⟨_, rfl⟩

/-- The header is left as it is. -/
theorem substituted_header (W : Walk.World) (c : Walk.Ctx) (opts : List Walk.Opt) (h : Head) : ∃ c', Walk.substOne W c opts (headEl h) = .ok (headEl h, c') := by
  obtain ⟨c1, h1⟩ := decls_substituted W opts h c
  obtain ⟨l, hl⟩ := walk_authors h
  have ht : ∀ c, Walk.substTitle W c [.str h.title] = .ok ([.str h.title], c.counters) := by
    intro c
    unfold Walk.substTitle Walk.replaceAndReparse
    rw [C59.replace_textual (fun e he => .inl ⟨h.title, List.mem_singleton.mp he⟩)]
    rfl
  unfold headEl
  unfold Walk.substOne
  rw [h1]
  dsimp only
  rw [hl]
  dsimp only
  rw [show ∀ c, Walk.substAttrs W c [] [] = .ok [] from fun _ => rfl]
  dsimp only
  rw [ht]
  exact ⟨_, rfl⟩

/-! ### The filter -/

/-- The header for the filter. -/
def filterHead (num : Any → Nat) : Any → Filter.FEl
  | .header a t es => .header (!t.isEmpty) (!a.isEmpty) (es.map (fun e => .leaf (num e)))
  | e => C62.filterOf num e

theorem header_filtered (num : Any → Nat) (h : Head) : Filter.filterOut [filterHead num (headEl h)] = [filterHead num (headEl h)] := by
  have hl : ∀ es : List Any, Filter.filterOut (es.map (fun e => .leaf (num e))) = es.map (fun e => .leaf (num e)) := by
    intro es
    induction es with
    | nil => rfl
    | cons e es ih =>
      rw [List.map_cons]
      simp [Filter.filterOut, Filter.isNoise, Filter.inside, Filter.isEmptyHeader, ih]
  show Filter.filterOut [.header true false ((decls h).map (fun e => .leaf (num e)))] = [.header true false _]
  simp [Filter.filterOut, Filter.isNoise, Filter.inside, Filter.isEmptyHeader, hl]

/-! ### The aggregation -/

/-- A declaration in the header; `num` names values. -/
def helem (num : Any → Nat) : Any → HElem
  | .declare n v => .decl n (.other (num v + 1))
  | e => .other (num e)

/-- The header for the aggregation. -/
def secHead (num : Any → Nat) : Any → Elem
  | .header _ t es => .header (!t.isEmpty) (es.map (helem num))
  | e => C63.secOf num e

theorem get_none {m : AMap Val} {k : String} : AMap.get m k = none ↔ ∀ p ∈ m, p.1 ≠ k := by
  rw [← Option.not_isSome_iff_eq_none, AMap.get_isSome_iff]
  simp only [List.mem_map, Prod.exists, exists_and_right, exists_eq_right, not_exists, ne_eq, Prod.forall]
  exact ⟨fun h a b hm e => h b (e ▸ hm), fun h x hm => h _ x hm rfl⟩

theorem setAll_none {k : String} : ∀ (src dst : AMap Val), AMap.get (AMap.setAll dst src) k = none ↔ AMap.get dst k = none ∧ ∀ p ∈ src, p.1 ≠ k
  | [], dst => ⟨fun h => ⟨h, fun _ h => nomatch h⟩, fun h => h.1⟩
  | p :: src, dst => by
    show AMap.get (AMap.setAll (AMap.set dst p.1 p.2) src) k = none ↔ _
    rw [setAll_none src, AMap.get_set]
    by_cases h : k = p.1
    · rw [if_pos h]
      exact ⟨(fun h => nomatch h.1), fun h' => absurd h.symm (h'.2 p List.mem_cons_self)⟩
    · rw [if_neg h]
      exact ⟨fun h' => ⟨h'.1, fun q hq => by rcases List.mem_cons.mp hq with rfl | hq; exacts [fun e => h e.symm, h'.2 q hq]⟩, fun h' => ⟨h'.1, fun q hq => h'.2 q (List.mem_cons_of_mem _ hq)⟩⟩

theorem still_unset {a : CtxAttrs} {n q : String} {v : Val} (hn : q ≠ n) (h : AMap.get a.all q = none) : AMap.get (a.set n v).all q = none := by
  unfold CtxAttrs.all at h ⊢
  rw [setAll_none, setAll_none] at h
  show AMap.get (AMap.setAll (AMap.setAll [] (AMap.set a.doc n v)) a.imm) q = none
  rw [setAll_none, setAll_none]
  refine ⟨⟨rfl, get_none.mp ?_⟩, h.2⟩
  rw [AMap.get_set, if_neg hn]
  exact get_none.mpr h.1.2

/-- Declarations of authors and revision do not matter for identifiers. -/
theorem head_state (num : Any → Nat) (h : Head) (st : AState) : ∃ pa, ((decls h).map (helem num)).foldl AState.headerElem st = { st with attrs := pa } ∧
    ∀ q ∈ ["idprefix", "idseparator"], AMap.get st.attrs.all q = none → AMap.get pa.all q = none := by
  have hq1 : ∀ q ∈ ["idprefix", "idseparator"], q ≠ "authors" ∧ q ≠ "revision" := by decide
  unfold decls
  by_cases ha : h.authors = []
  · rw [if_pos ha]
    cases h.revision with
    | none => exact ⟨st.attrs, rfl, fun _ _ h => h⟩
    | some v => exact ⟨_, rfl, fun q hq h => still_unset (hq1 q hq).2 h⟩
  · rw [if_neg ha]
    cases h.revision with
    | none => exact ⟨_, rfl, fun q hq h => still_unset (hq1 q hq).1 h⟩
    | some v => exact ⟨_, rfl, fun q hq h => still_unset (hq1 q hq).2 (still_unset (hq1 q hq).1 h)⟩

/-! ### Back to the renderer -/

/-- The value of a declaration, for the renderer. -/
def valueEl : Any → AV
  | .authors l => .authors (l.map (fun a => ⟨some ⟨a.1, a.2.1, a.2.2.1⟩, a.2.2.2⟩))
  | .revision n d r => .revision n d r
  | _ => .nil

/-- The header, for the renderer. -/
def headOut : Any → El
  | .header _ t es => .docHeader [] (some (t.map (fun e => match e with | .str t => El.str t | _ => .other)))
      (es.map (fun e => match e with | .declare n v => El.attrDecl n (valueEl v) | _ => .other))
  | _ => .other

theorem head_out (h : Head) : headOut (headEl h) = .docHeader [] (some [.str h.title]) (declEls h) := by
  show El.docHeader [] (some [.str h.title]) _ = _
  congr 1
  unfold decls declEls
  by_cases ha : h.authors = []
  · rw [if_pos ha, if_pos ha]
    cases h.revision <;> rfl
  · rw [if_neg ha, if_neg ha]
    have : ((h.authors.map value).map (fun a => (⟨some ⟨a.1, a.2.1, a.2.2.1⟩, a.2.2.2⟩ : Rend.Author))) = h.authors.map toAuthor := by
      rw [List.map_map]
      rfl
    cases h.revision with
    | none =>
      show [El.attrDecl "authors" (.authors ((h.authors.map value).map _))] = [_]
      rw [this]
    | some v =>
      show [El.attrDecl "authors" (.authors ((h.authors.map value).map _)), _] = [_, _]
      rw [this]
      rfl

/-- The first elements of a tree, and the rest. -/
def takeTops : Nat → Forest Elem → Forest Elem
  | 0, _ => .nil
  | _ + 1, .nil => .nil
  | n + 1, .cons e k r => .cons e k (takeTops n r)

def dropTops : Nat → Forest Elem → Forest Elem
  | 0, f => f
  | _ + 1, .nil => .nil
  | n + 1, .cons _ _ r => dropTops n r

/-- The tree with the preamble in it, for the renderer: `tops` are the elements at its top, after the preamble was inserted; `head` is the header. -/
def rebuild (name : Nat → Any) (head : Any) : List Top → Forest Elem → List El
  | [], _ => []
  | .elem (.header _ _) :: ts, .cons _ _ rest => headOut head :: rebuild name head ts rest
  | .elem e :: ts, .cons _ kids rest => C63.back name (.cons e kids .nil) ++ rebuild name head ts rest
  | .preamble es :: ts, f => .preamble (C63.back name (takeTops es.length f)) none :: rebuild name head ts (dropTops es.length f)
  | _ :: _, _ => [.other]

/-! ### What comes before the first section -/

open Sectioned (html deeper)
open C63 (tree elemOf seen)

/-- Not the title of a section. -/
def front (y : Item × Text) : Bool := Headed.before y.1

theorem tree_append : ∀ (pre rest : List (Item × Text)), (∀ y ∈ pre, front y = true) → tree (pre ++ rest) = tree pre ++ tree rest
  | [], rest, _ => by rw [tree]; rfl
  | (.block b, id) :: pre, rest, h => by
    have ih := tree_append pre rest (fun y hy => h y (List.mem_cons_of_mem _ hy))
    rw [List.cons_append, tree, tree, ih]
    rfl
  | (.list n ns, id) :: pre, rest, h => by
    have ih := tree_append pre rest (fun y hy => h y (List.mem_cons_of_mem _ hy))
    rw [List.cons_append, tree, tree, ih]
    rfl
  | (.heading hd, id) :: pre, rest, h => absurd (h _ List.mem_cons_self) (by show ¬ false = true; decide)

theorem html_append (lower : Text → Text) (u : Bool) : ∀ (pre rest : List (Item × Text)), (∀ y ∈ pre, front y = true) → html lower u (pre ++ rest) = html lower u pre ++ html lower u rest
  | [], rest, _ => by rw [html]; rfl
  | (.block b, id) :: pre, rest, h => by
    have ih := html_append lower u pre rest (fun y hy => h y (List.mem_cons_of_mem _ hy))
    rw [List.cons_append, html, html, ih, List.append_assoc]
  | (.list n ns, id) :: pre, rest, h => by
    have ih := html_append lower u pre rest (fun y hy => h y (List.mem_cons_of_mem _ hy))
    rw [List.cons_append, html, html, ih, List.append_assoc]
  | (.heading hd, id) :: pre, rest, h => absurd (h _ List.mem_cons_self) (by show ¬ false = true; decide)

theorem named_append (alnum : Char → Bool) (used : List Text) : ∀ (pre rest : List Item), (∀ x ∈ pre, Headed.before x = true) →
    Sectioned.named alnum used (pre ++ rest) = Sectioned.named alnum used pre ++ Sectioned.named alnum used rest
  | [], rest, _ => rfl
  | .block b :: pre, rest, h => congrArg (_ :: ·) (named_append alnum used pre rest (fun y hy => h y (List.mem_cons_of_mem _ hy)))
  | .list n ns :: pre, rest, h => congrArg (_ :: ·) (named_append alnum used pre rest (fun y hy => h y (List.mem_cons_of_mem _ hy)))
  | .heading hd :: pre, rest, h => absurd (h _ List.mem_cons_self) (by show ¬ false = true; decide)

theorem named_front {alnum : Char → Bool} {used : List Text} {pre : List Item} (h : ∀ x ∈ pre, Headed.before x = true) : ∀ y ∈ Sectioned.named alnum used pre, front y = true :=
  fun y hy => h _ (C63.named_mem y hy)

theorem named_length (alnum : Char → Bool) : ∀ (xs : List Item) (used : List Text), (Sectioned.named alnum used xs).length = xs.length
  | [], _ => rfl
  | .block b :: xs, used => congrArg (· + 1) (named_length alnum xs used)
  | .list n ns :: xs, used => congrArg (· + 1) (named_length alnum xs used)
  | .heading hd :: xs, used => congrArg (· + 1) (named_length alnum xs _)

/-- What comes before the sections, one after the other. -/
theorem front_elem (num : Any → Nat) : ∀ (pre rest : List (Item × Text)), (∀ y ∈ pre, front y = true) →
    C63.tops (Nested.nest ((pre ++ rest).map (elemOf num))) = pre.map (elemOf num) ++ C63.tops (Nested.nest (rest.map (elemOf num))) ∧
    takeTops pre.length (Nested.nest ((pre ++ rest).map (elemOf num))) = Nested.nest (pre.map (elemOf num)) ∧
    dropTops pre.length (Nested.nest ((pre ++ rest).map (elemOf num))) = Nested.nest (rest.map (elemOf num))
  | [], rest, _ => ⟨rfl, by rw [List.map_nil, Nested.nest]; rfl, rfl⟩
  | (.block b, id) :: pre, rest, h => by
    obtain ⟨h1, h2, h3⟩ := front_elem num pre rest (fun y hy => h y (List.mem_cons_of_mem _ hy))
    rw [List.cons_append, List.map_cons, List.map_cons, Nested.nest_other rfl, Nested.nest_other rfl]
    exact ⟨congrArg (_ :: ·) h1, congrArg (Forest.cons _ _) h2, h3⟩
  | (.list n ns, id) :: pre, rest, h => by
    obtain ⟨h1, h2, h3⟩ := front_elem num pre rest (fun y hy => h y (List.mem_cons_of_mem _ hy))
    rw [List.cons_append, List.map_cons, List.map_cons, Nested.nest_other rfl, Nested.nest_other rfl]
    exact ⟨congrArg (_ :: ·) h1, congrArg (Forest.cons _ _) h2, h3⟩
  | (.heading hd, id) :: pre, rest, h => absurd (h _ List.mem_cons_self) (by show ¬ false = true; decide)

theorem front_unsect (num : Any → Nat) {y : Item × Text} (h : front y = true) : C17.isSect (elemOf num y) = false := by
  obtain ⟨x, id⟩ := y
  cases x with
  | block b => rfl
  | list n ns => rfl
  | heading hd => cases h

theorem elem_body (num : Any → Nat) (y : Item × Text) : C17.isBody (elemOf num y) = true ∧ C17.isContent (elemOf num y) = true ∧ (∀ a b, elemOf num y ≠ .header a b) := by
  obtain ⟨x, id⟩ := y
  cases x <;> exact ⟨rfl, rfl, fun _ _ h => nomatch h⟩

/-- Without preamble. -/
theorem rebuild_tops (name : Nat → Any) (head : Any) : ∀ (f : Forest Elem), (∀ e ∈ C63.tops f, ∀ a b, e ≠ .header a b) → rebuild name head ((C63.tops f).map .elem) f = C63.back name f
  | .nil, _ => rfl
  | .cons e kids rest, h => by
    have ih := rebuild_tops name head rest (fun e he => h e (List.mem_cons_of_mem _ he))
    have hs : rebuild name head (.elem e :: (C63.tops rest).map .elem) (.cons e kids rest) = C63.back name (.cons e kids .nil) ++ rebuild name head ((C63.tops rest).map .elem) rest := by
      cases e with
      | header a b => exact absurd rfl (h _ List.mem_cons_self a b)
      | _ => rfl
    show rebuild name head (.elem e :: (C63.tops rest).map .elem) (.cons e kids rest) = _
    rw [hs, ih]
    cases e <;> rfl

/-- Nothing, or a section first. -/
def Sect : List (Item × Text) → Prop
  | [] => True
  | y :: _ => front y = false

theorem sect_tops (num : Any → Nat) {rest : List (Item × Text)} (h : Sect rest) :
    (C63.tops (Nested.nest (rest.map (elemOf num)))).takeWhile (fun e => !C17.isSect e) = [] ∧
    (rest ≠ [] → ∃ e ∈ C63.tops (Nested.nest (rest.map (elemOf num))), C17.isSect e = true) := by
  match rest, h with
  | [], _ => exact ⟨by rw [List.map_nil, Nested.nest]; rfl, fun h => absurd rfl h⟩
  | (.block b, id) :: rest, h => cases h
  | (.list n ns, id) :: rest, h => cases h
  | (.heading hd, id) :: rest, h =>
    rw [List.map_cons]
    rw [show Nested.nest (elemOf num (.heading hd, id) :: rest.map (elemOf num)) = _ from Nested.nest_sect _ _]
    exact ⟨rfl, fun _ => ⟨.sect ⟨hd.level, [.str hd.title], true, id⟩, List.mem_cons_self, rfl⟩⟩

/-- The elements of the document, with its preamble. -/
theorem rebuilt (num : Any → Nat) (name : Nat → Any) (head : Any) (hs : List HElem) {pre rest : List (Item × Text)} (hpre : ∀ y ∈ pre, front y = true) (hrest : Sect rest)
    (hname : ∀ y ∈ pre ++ rest, name (num (C63.finalItem y.1)) = C63.finalItem y.1) :
    rebuild name head (insertPreamble (C63.tops (Nested.nest (.header true hs :: (pre ++ rest).map (elemOf num))))) (Nested.nest (.header true hs :: (pre ++ rest).map (elemOf num))) =
      headOut head :: (if pre ≠ [] ∧ rest ≠ [] then [El.preamble (tree pre) none] else tree pre) ++ tree rest := by
  obtain ⟨h1, h2, h3⟩ := front_elem num pre rest hpre
  obtain ⟨s1, s2⟩ := sect_tops num hrest
  have hbp : C63.back name (Nested.nest (pre.map (elemOf num))) = tree pre :=
    C63.back_tree num name _ pre (Nat.le_refl _) (fun y hy => hname y (List.mem_append_left _ hy))
  have hbr : C63.back name (Nested.nest (rest.map (elemOf num))) = tree rest :=
    C63.back_tree num name _ rest (Nat.le_refl _) (fun y hy => hname y (List.mem_append_right _ hy))
  have hall : C63.back name (Nested.nest ((pre ++ rest).map (elemOf num))) = tree (pre ++ rest) :=
    C63.back_tree num name _ _ (Nat.le_refl _) hname
  have hmem : ∀ ys : List (Item × Text), ∀ e ∈ C63.tops (Nested.nest (ys.map (elemOf num))), ∃ y, e = elemOf num y := by
    intro ys e he
    obtain ⟨y, _, rfl⟩ := List.mem_map.mp (C63.tops_nest _ _ (Nat.le_refl _) e he)
    exact ⟨y, rfl⟩
  have hnohead : ∀ ys : List (Item × Text), ∀ e ∈ C63.tops (Nested.nest (ys.map (elemOf num))), ∀ a b, e ≠ .header a b := by
    intro ys e he
    obtain ⟨y, rfl⟩ := hmem ys e he
    exact (elem_body num y).2.2
  have htw : (C63.tops (Nested.nest ((pre ++ rest).map (elemOf num)))).takeWhile (fun e => !C17.isSect e) = pre.map (elemOf num) := by
    rw [h1, List.takeWhile_append_of_pos, s1, List.append_nil]
    intro e he
    obtain ⟨y, hy, rfl⟩ := List.mem_map.mp he
    rw [front_unsect num (hpre y hy)]
    rfl
  have hdw : (C63.tops (Nested.nest ((pre ++ rest).map (elemOf num)))).dropWhile (fun e => !C17.isSect e) = C63.tops (Nested.nest (rest.map (elemOf num))) := by
    have := List.takeWhile_append_dropWhile (p := fun e => !C17.isSect e) (l := C63.tops (Nested.nest ((pre ++ rest).map (elemOf num))))
    rw [htw] at this
    conv at this => rhs; rw [h1]
    exact List.append_cancel_left this
  rw [Nested.nest_other rfl]
  show rebuild name head (insertPreamble (.header true hs :: C63.tops (Nested.nest ((pre ++ rest).map (elemOf num))))) _ = _
  have hi := C17.insertPreamble_eq none true hs (C63.tops (Nested.nest ((pre ++ rest).map (elemOf num)))) (fun e he => by
    obtain ⟨y, rfl⟩ := hmem _ e he
    exact (elem_body num y).1)
  rw [show insertPreamble (.header true hs :: C63.tops (Nested.nest ((pre ++ rest).map (elemOf num)))) = _ from hi]
  by_cases hw : pre ≠ [] ∧ rest ≠ []
  · rw [if_pos hw, if_pos]
    · rw [htw, hdw]
      show headOut head :: El.preamble (C63.back name (takeTops (pre.map (elemOf num)).length _)) none :: rebuild name head _ (dropTops (pre.map (elemOf num)).length _) = _
      rw [List.length_map, h2, h3, hbp, rebuild_tops name head _ (hnohead rest), hbr]
      rfl
    · refine ⟨rfl, ?_, ?_⟩
      · obtain ⟨e, he, hse⟩ := s2 hw.2
        exact ⟨e, by rw [h1]; exact List.mem_append_right _ he, hse⟩
      · rw [htw]
        obtain ⟨y, hy⟩ := List.exists_mem_of_ne_nil _ hw.1
        exact ⟨_, List.mem_map.mpr ⟨y, hy, rfl⟩, (elem_body num y).2.1⟩
  · rw [if_neg hw, if_neg]
    · show headOut head :: rebuild name head ((C63.tops (Nested.nest ((pre ++ rest).map (elemOf num)))).map .elem) _ = _
      rw [rebuild_tops name head _ (hnohead _), hall, tree_append _ _ hpre]
      rfl
    · rintro ⟨_, ⟨e, he, hse⟩, ⟨e', he', _⟩⟩
      rw [htw] at he'
      refine hw ⟨fun hn => ?_, fun hn => ?_⟩
      · rw [hn] at he'; cases he'
      · subst hn
        rw [h1, List.map_nil, Nested.nest] at he
        have he : e ∈ pre.map (elemOf num) := by simpa [C63.tops] using he
        obtain ⟨y, hy, rfl⟩ := List.mem_map.mp he
        rw [front_unsect num (hpre y hy)] at hse
        cases hse

end C66
end Verif
