import Verif.Props.SectionParse
import Verif.Props.Ids
import Verif.Props.IdText
import Verif.Props.Composed
import Verif.Props.ListArrange
import Verif.Proofs.Nested

/-!
# C63, continued — The tree of sections and their identifiers
-/
namespace Verif
namespace C63
open Sectioned
open Walk (Any)
open Composed (Block)

/-! ### Identifiers -/

theorem candidate_eq (base : Text) (n : Nat) : Sectioned.candidate base n = Verif.candidate base (n + 1) := by
  cases n with
  | zero => rfl
  | succ n =>
    unfold Verif.candidate
    rw [if_neg (by omega)]
    show base ++ '_' :: (toString (n + 2)).toList = base ++ '_' :: itoa (n + 1 + 1)
    congr 2
    exact Nat.toList_repr

theorem contains_eq (refs : Refs) (id : Text) : (refs.get id).isSome = (refs.map Prod.fst).contains id := by
  cases h : (refs.get id).isSome with
  | true => exact (List.contains_iff_mem.mpr (C14.get_some_mem refs id h)).symm
  | false =>
    cases h' : (refs.map Prod.fst).contains id with
    | false => rfl
    | true => rw [C14.mem_get_some refs id (List.contains_iff_mem.mp h')] at h; cases h

theorem loop_find (refs : Refs) (base : Text) : ∀ n i, resolveLoop refs base n (i + 1) =
    ((List.range' i n).map (Sectioned.candidate base)).find? (fun id => !(refs.map Prod.fst).contains id)
  | 0, _ => rfl
  | n + 1, i => by
    have ih := loop_find refs base n (i + 1)
    rw [List.range'_succ, List.map_cons, List.find?_cons, ← contains_eq, candidate_eq]
    unfold resolveLoop
    cases h : (refs.get (Verif.candidate base (i + 1))).isSome with
    | true => rw [if_pos rfl]; exact ih
    | false => rw [if_neg (by decide)]; rfl

/-- The identifier of a section is the first one that is not used. -/
theorem resolve_free (alnum : Char → Bool) (fmt : Val → Text) (attrs : AMap Val) (refs : Refs) (s : Sec) :
    resolveID alnum fmt attrs refs s = free (refs.map Prod.fst) (baseID alnum fmt attrs s) := by
  unfold resolveID free
  rw [loop_find refs _ _ 0, List.range_eq_range', List.length_map]

theorem words_eq (alnum : Char → Bool) (t : Text) : C15.words alnum t = words alnum t := by
  unfold C15.words words
  congr 2

/-- The identifier made from a title. -/
theorem base_anchor {alnum : Char → Bool} (hu : alnum '_' = false) (hb : alnum ' ' = false) {fmt : Val → Text} {attrs : AMap Val}
    (h1 : AMap.get attrs "idprefix" = none) (h2 : AMap.get attrs "idseparator" = none) (l : Int) (t : Text) :
    baseID alnum fmt attrs ⟨l, [.str t], true, []⟩ = anchor alnum t := by
  unfold baseID getAsStringWithDefault
  rw [if_neg (fun h => h rfl), h1, h2]
  show titleID alnum ['_'] ['_'] [.str t] = _
  have hs : ∀ c ∈ ['_'], alnum c = false := by
    intro c hc
    rw [List.mem_singleton] at hc
    rw [hc]; exact hu
  rw [C15.plain_title alnum ['_'] ['_'] hs hb]
  unfold C15.body anchor
  rw [words_eq]
  by_cases hw : words alnum t = []
  · rw [if_pos hw, hw, if_neg (fun ⟨x, hx⟩ => nomatch hx)]
    rfl
  · rw [if_neg hw]
    cases hst : C15.startsWithSep alnum t with
    | true =>
      rw [if_pos rfl, if_pos ⟨_, rfl⟩]
      rfl
    | false =>
      rw [if_neg (c := false = true) (by decide), List.nil_append, if_neg]
      · rfl
      · rintro ⟨x, hx⟩
        obtain ⟨w, ws, e⟩ := List.exists_cons_of_ne_nil hw
        have hok := C15.words_ok alnum t w (by rw [words_eq, e]; exact List.mem_cons_self)
        obtain ⟨c, w', rfl⟩ := List.exists_cons_of_ne_nil hok.1
        have hc := hok.2 c List.mem_cons_self
        have : ∃ y, ['_'].intercalate ((c :: w') :: ws) = c :: y := by
          cases ws with
          | nil => exact ⟨w', by simp [List.intercalate]⟩
          | cons v vs => exact ⟨w' ++ '_' :: ['_'].intercalate (v :: vs), by simp [List.intercalate]⟩
        obtain ⟨y, hy⟩ := this
        rw [e, hy] at hx
        injection hx with hx _
        rw [← hx, hu] at hc
        cases hc

theorem free_candidate (used : List Text) (base : Text) : ∃ n, free used base = Sectioned.candidate base n := by
  have h := C14.terminates (used.map (fun id => (id, .block 0))) base
  obtain ⟨id, h⟩ := h
  have h := h _ (Nat.le_refl _)
  rw [loop_find _ _ _ 0] at h
  have he : (used.map (fun id => ((id, .block 0) : Text × RefTitle))).map Prod.fst = used := by
    rw [List.map_map]; exact List.map_id _
  rw [he, List.length_map, ← List.range_eq_range'] at h
  unfold free
  rw [h]
  have := List.mem_of_find?_eq_some h
  obtain ⟨n, _, rfl⟩ := List.mem_map.mp this
  exact ⟨n, rfl⟩

theorem free_ne (used : List Text) (alnum : Char → Bool) (t : Text) : free used (anchor alnum t) ≠ [] := by
  obtain ⟨n, h⟩ := free_candidate used (anchor alnum t)
  rw [h]
  cases n <;> exact fun h => nomatch h

/-! ### The document after aggregation -/

/-- The title of a section, for the aggregation. -/
def titleElem : Any → TElem
  | .str t => .str t
  | _ => .other 0

/-- An element for the aggregation; `num` names the elements other than sections. They have no identifiers, so that they do not add references. -/
def secOf (num : Any → Nat) : Any → Elem
  | .section l _ t => .sect ⟨l, t.map titleElem, true, []⟩
  | e => .block (num e) []

/-- An item after the filter. -/
def finalItem : Item → Any
  | .block b => C62.final b
  | .heading h => .section h.level [] [.str h.title]
  | .list n ns => C64.arranged (n :: ns)

/-- The same after the aggregation. -/
def elemOf (num : Any → Nat) : Item × Text → Elem
  | (.block b, _) => .block (num (C62.final b)) []
  | (.list n ns, _) => .block (num (C64.arranged (n :: ns))) []
  | (.heading h, id) => .sect ⟨h.level, [.str h.title], true, id⟩

def refOf : Item × Text → Option (Text × RefTitle)
  | (.block _, _) => none
  | (.list _ _, _) => none
  | (.heading h, id) => some (id, .sect [.str h.title])

def tocOf : Item × Text → Option Toc
  | (.block _, _) => none
  | (.list _ _, _) => none
  | (.heading h, id) => some ⟨id, h.level⟩

theorem secOf_final (num : Any → Nat) (b : Block) : secOf num (C62.final b) = .block (num (C62.final b)) [] := by cases b <;> rfl

/-- What the aggregation makes of the document. -/
theorem aggregated {alnum : Char → Bool} (hu : alnum '_' = false) (hb : alnum ' ' = false) (fmt : Val → Text) (num : Any → Nat) :
    ∀ (xs : List Item) (st : AState), AMap.get st.attrs.all "idprefix" = none → AMap.get st.attrs.all "idseparator" = none →
    (xs.map (fun x => secOf num (finalItem x))).foldl (aggStep alnum fmt) st =
      { st with
        refs := ((named alnum (st.refs.map Prod.fst) xs).filterMap refOf).reverse ++ st.refs
        agg := ((named alnum (st.refs.map Prod.fst) xs).map (elemOf num)).foldl Agg.append st.agg
        toc := ((named alnum (st.refs.map Prod.fst) xs).filterMap tocOf).foldl (fun f t => tocAdd st.maxDepth t f) st.toc }
  | [], st, _, _ => rfl
  | .block b :: xs, st, h1, h2 => by
    rw [List.map_cons, List.foldl_cons]
    have hs : aggStep alnum fmt st (secOf num (finalItem (.block b))) = { st with agg := st.agg.append (.block (num (C62.final b)) []) } := by
      show aggStep alnum fmt st (secOf num (C62.final b)) = _
      rw [secOf_final]
      rfl
    rw [hs, aggregated hu hb fmt num xs { st with agg := st.agg.append (.block (num (C62.final b)) []) } h1 h2]
    rfl
  | .list n ns :: xs, st, h1, h2 => by
    rw [List.map_cons, List.foldl_cons]
    have hs : aggStep alnum fmt st (secOf num (finalItem (.list n ns))) = { st with agg := st.agg.append (.block (num (C64.arranged (n :: ns))) []) } := rfl
    rw [hs, aggregated hu hb fmt num xs { st with agg := st.agg.append (.block (num (C64.arranged (n :: ns))) []) } h1 h2]
    rfl
  | .heading h :: xs, st, h1, h2 => by
    rw [List.map_cons, List.foldl_cons]
    let id := free (st.refs.map Prod.fst) (anchor alnum h.title)
    have hid : id ≠ [] := free_ne _ _ _
    have hs : aggStep alnum fmt st (secOf num (finalItem (.heading h))) =
        { st with toc := tocAdd st.maxDepth ⟨id, h.level⟩ st.toc, agg := st.agg.append (.sect ⟨h.level, [.str h.title], true, id⟩), refs := (id, .sect [.str h.title]) :: st.refs } := by
      show aggStep alnum fmt st (.sect ⟨h.level, [.str h.title], true, []⟩) = _
      unfold aggStep
      dsimp only
      rw [resolve_free, base_anchor hu hb h1 h2]
      rw [if_pos ⟨hid, rfl⟩]
    rw [hs]
    refine (aggregated hu hb fmt num xs { st with
      toc := tocAdd st.maxDepth ⟨id, h.level⟩ st.toc, agg := st.agg.append (.sect ⟨h.level, [.str h.title], true, id⟩), refs := (id, .sect [.str h.title]) :: st.refs } h1 h2).trans ?_
    show AState.mk _ _ _ _ _ = AState.mk _ _ _ _ _
    congr 1
    show _ ++ (id, _) :: st.refs = (List.filterMap refOf ((.heading h, id) :: named alnum (id :: st.refs.map Prod.fst) xs)).reverse ++ st.refs
    rw [List.filterMap_cons]
    show _ = (((id, RefTitle.sect [.str h.title]) :: _).reverse) ++ st.refs
    rw [List.reverse_cons, List.append_assoc]
    rfl

/-! ### The document for the renderer -/

open Rend (El AV)

/-- The title of a section, for the renderer. -/
def titleEl : TElem → El
  | .str t => .str t
  | _ => .other

/-- The tree, for the renderer; `name` finds the elements that are named by numbers. -/
def back (name : Nat → Any) : Forest Elem → List El
  | .nil => []
  | .cons (.sect s) kids rest => .sect s.level [("id", .str s.id)] (s.title.map titleEl) (back name kids) :: back name rest
  | .cons (.block n _) _ rest => C62.el (name n) :: back name rest
  | .cons _ _ rest => .other :: back name rest

/-- The references, for the renderer. -/
def backRefs : Refs → List (Text × AV)
  | [] => []
  | (id, .sect t) :: refs => (id, .els (t.map titleEl)) :: backRefs refs
  | (id, .block _) :: refs => (id, .nil) :: backRefs refs

/-- The table of contents, for the renderer: titles and numbers are not set yet. -/
def backToc : Forest Toc → List Rend.Toc
  | .nil => []
  | .cons t kids rest => .entry t.id t.level [] [] (backToc kids) :: backToc rest

/-- A table of contents without entries is dropped (document_processing_aggregate.go:104-106). -/
def tocField (f : Forest Toc) : Option (Option (List Rend.Toc)) :=
  match f with
  | .nil => none
  | f => some (some (backToc f))

/-- The elements of the document: a section contains what follows its title, up to the next title whose level is not greater. -/
def tree : List (Item × Text) → List El
  | [] => []
  | (.block b, _) :: xs => C62.el (C62.final b) :: tree xs
  | (.list n ns, _) :: xs => C62.el (C64.arranged (n :: ns)) :: tree xs
  | (.heading h, id) :: xs =>
    .sect h.level [("id", .str id)] [.str h.title] (tree (xs.takeWhile (deeper h.level))) :: tree (xs.dropWhile (deeper h.level))
termination_by xs => xs.length
decreasing_by
  · simp
  · simp
  · have := takeWhile_length (deeper h.level) xs; simp only [List.length_cons]; omega
  · have := dropWhile_length (deeper h.level) xs; simp only [List.length_cons]; omega

theorem below_deeper (num : Any → Nat) (n : Nat) (y : Item × Text) : Nested.below n (elemOf num y) = deeper n y := by
  obtain ⟨x, id⟩ := y
  cases x with
  | block b => rfl
  | list n ns => rfl
  | heading h =>
    show decide ((n : Int) < (h.level : Int)) = decide (n < h.level)
    exact decide_eq_decide.mpr Int.ofNat_lt

theorem map_takeWhile {α β : Type} (f : α → β) (p : β → Bool) (q : α → Bool) (h : ∀ x, p (f x) = q x) : ∀ l : List α, (l.map f).takeWhile p = (l.takeWhile q).map f
  | [] => rfl
  | x :: l => by
    rw [List.map_cons, List.takeWhile_cons, List.takeWhile_cons, h]
    cases q x
    · rfl
    · exact congrArg (f x :: ·) (map_takeWhile f p q h l)

theorem map_dropWhile {α β : Type} (f : α → β) (p : β → Bool) (q : α → Bool) (h : ∀ x, p (f x) = q x) : ∀ l : List α, (l.map f).dropWhile p = (l.dropWhile q).map f
  | [] => rfl
  | x :: l => by
    rw [List.map_cons, List.dropWhile_cons, List.dropWhile_cons, h]
    cases q x
    · rfl
    · exact map_dropWhile f p q h l

/-- The tree that is built is the tree of sections. -/
theorem back_tree (num : Any → Nat) (name : Nat → Any) : ∀ (n : Nat) (ys : List (Item × Text)), ys.length ≤ n →
    (∀ y ∈ ys, name (num (finalItem y.1)) = finalItem y.1) → back name (Nested.nest (ys.map (elemOf num))) = tree ys
  | _, [], _, _ => by rw [tree, List.map_nil, Nested.nest]; rfl
  | n + 1, (.block b, id) :: ys, hn, h => by
    have ih := back_tree num name n ys (by simpa using hn) (fun y hm => h y (List.mem_cons_of_mem _ hm))
    rw [tree, List.map_cons, Nested.nest_other rfl, ← ih]
    show C62.el (name _) :: _ = _
    rw [show name (num (C62.final b)) = C62.final b from h _ List.mem_cons_self]
  | n + 1, (.list x xs, id) :: ys, hn, h => by
    have ih := back_tree num name n ys (by simpa using hn) (fun y hm => h y (List.mem_cons_of_mem _ hm))
    rw [tree, List.map_cons, Nested.nest_other rfl, ← ih]
    show C62.el (name _) :: _ = _
    rw [show name (num (C64.arranged (x :: xs))) = C64.arranged (x :: xs) from h _ List.mem_cons_self]
  | n + 1, (.heading hd, id) :: ys, hn, h => by
    have hn : ys.length ≤ n := by simpa using hn
    have h' : ∀ y ∈ ys, name (num (finalItem y.1)) = finalItem y.1 := fun y hm => h y (List.mem_cons_of_mem _ hm)
    have ih1 := back_tree num name n (ys.takeWhile (deeper hd.level)) (Nat.le_trans (takeWhile_length _ _) hn) (fun y hm => h' y ((List.takeWhile_sublist _).mem hm))
    have ih2 := back_tree num name n (ys.dropWhile (deeper hd.level)) (Nat.le_trans (dropWhile_length _ _) hn) (fun y hm => h' y ((List.dropWhile_sublist _).mem hm))
    rw [tree, List.map_cons]
    show back name (Nested.nest (.sect ⟨hd.level, [.str hd.title], true, id⟩ :: _)) = _
    rw [Nested.nest_sect]
    show El.sect hd.level [("id", .str id)] [.str hd.title] (back name (Nested.nest ((ys.map (elemOf num)).takeWhile (Nested.below hd.level)))) ::
      back name (Nested.nest ((ys.map (elemOf num)).dropWhile (Nested.below hd.level))) = _
    rw [map_takeWhile _ _ (deeper hd.level) (below_deeper num hd.level), map_dropWhile _ _ (deeper hd.level) (below_deeper num hd.level), ih1, ih2]

end C63
end Verif
