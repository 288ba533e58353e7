import Verif.Spec.Woven
import Verif.Props.Outlined
import Verif.Props.Inlined

/-!
# C69 — Documents with sections and markup: the tree and its rendering

As for documents without markup (C63), but for any elements `fin x` that the items `x` may become, and any translation `el` of them for the renderer.
-/
namespace Verif
namespace C69
open Sectioned
open Walk (Any)
open Composed (Block)
open Rend hiding Item bind_ok
open C62 (Fine bind_ok fine_counters)
open C63 (secOf refOf tocOf titleEl Body Safe)

/-- The element after the aggregation, for items that become `fin x`. -/
def elemOf (fin : Item → Any) (num : Any → Nat) : Item × Text → Elem
  | (.block b, _) => .block (num (fin (.block b))) []
  | (.list n ns, _) => .block (num (fin (.list n ns))) []
  | (.heading h, id) => .sect ⟨h.level, [.str h.title], true, id⟩

/-- What items become: sections are sections, and all others are not. -/
structure Kept (fin : Item → Any) (xs : List Item) : Prop where
  heading : ∀ h, .heading h ∈ xs → fin (.heading h) = .section h.level [] [.str h.title]
  block : ∀ b, .block b ∈ xs → ∀ num, secOf num (fin (.block b)) = .block (num (fin (.block b))) []
  list : ∀ n ns, .list n ns ∈ xs → ∀ num, secOf num (fin (.list n ns)) = .block (num (fin (.list n ns))) []

theorem Kept.tail {fin : Item → Any} {x : Item} {xs : List Item} (h : Kept fin (x :: xs)) : Kept fin xs :=
  ⟨fun hd hm => h.heading hd (List.mem_cons_of_mem _ hm), fun b hm => h.block b (List.mem_cons_of_mem _ hm), fun n ns hm => h.list n ns (List.mem_cons_of_mem _ hm)⟩

/-- What the aggregation makes of the document. -/
theorem aggregated {alnum : Char → Bool} (hu : alnum '_' = false) (hb : alnum ' ' = false) (fmt : Val → Text) (fin : Item → Any) (num : Any → Nat) :
    ∀ (xs : List Item) (st : AState), Kept fin xs → AMap.get st.attrs.all "idprefix" = none → AMap.get st.attrs.all "idseparator" = none →
    (xs.map (fun x => secOf num (fin x))).foldl (aggStep alnum fmt) st =
      { st with
        refs := ((named alnum (st.refs.map Prod.fst) xs).filterMap refOf).reverse ++ st.refs
        agg := ((named alnum (st.refs.map Prod.fst) xs).map (elemOf fin num)).foldl Agg.append st.agg
        toc := ((named alnum (st.refs.map Prod.fst) xs).filterMap tocOf).foldl (fun f t => tocAdd st.maxDepth t f) st.toc }
  | [], st, _, _, _ => rfl
  | .block b :: xs, st, hk, h1, h2 => by
    rw [List.map_cons, List.foldl_cons]
    have hs : aggStep alnum fmt st (secOf num (fin (.block b))) = { st with agg := st.agg.append (.block (num (fin (.block b))) []) } := by
      rw [hk.block b List.mem_cons_self]
      rfl
    rw [hs, aggregated hu hb fmt fin num xs { st with agg := st.agg.append (.block (num (fin (.block b))) []) } hk.tail h1 h2]
    rfl
  | .list n ns :: xs, st, hk, h1, h2 => by
    rw [List.map_cons, List.foldl_cons]
    have hs : aggStep alnum fmt st (secOf num (fin (.list n ns))) = { st with agg := st.agg.append (.block (num (fin (.list n ns))) []) } := by
      rw [hk.list n ns List.mem_cons_self]
      rfl
    rw [hs, aggregated hu hb fmt fin num xs { st with agg := st.agg.append (.block (num (fin (.list n ns))) []) } hk.tail h1 h2]
    rfl
  | .heading h :: xs, st, hk, h1, h2 => by
    rw [List.map_cons, List.foldl_cons]
    let id := free (st.refs.map Prod.fst) (anchor alnum h.title)
    have hid : id ≠ [] := C63.free_ne _ _ _
    have hs : aggStep alnum fmt st (secOf num (fin (.heading h))) =
        { st with toc := tocAdd st.maxDepth ⟨id, h.level⟩ st.toc, agg := st.agg.append (.sect ⟨h.level, [.str h.title], true, id⟩), refs := (id, .sect [.str h.title]) :: st.refs } := by
      rw [hk.heading h List.mem_cons_self]
      show aggStep alnum fmt st (.sect ⟨h.level, [.str h.title], true, []⟩) = _
      unfold aggStep
      dsimp only
      rw [C63.resolve_free, C63.base_anchor hu hb h1 h2]
      rw [if_pos ⟨hid, rfl⟩]
    rw [hs]
    refine (aggregated hu hb fmt fin num xs { st with
      toc := tocAdd st.maxDepth ⟨id, h.level⟩ st.toc, agg := st.agg.append (.sect ⟨h.level, [.str h.title], true, id⟩), refs := (id, .sect [.str h.title]) :: st.refs } hk.tail h1 h2).trans ?_
    show AState.mk _ _ _ _ _ = AState.mk _ _ _ _ _
    congr 1
    show _ ++ (id, _) :: st.refs = (List.filterMap refOf ((.heading h, id) :: named alnum (id :: st.refs.map Prod.fst) xs)).reverse ++ st.refs
    rw [List.filterMap_cons]
    show _ = (((id, RefTitle.sect [.str h.title]) :: _).reverse) ++ st.refs
    rw [List.reverse_cons, List.append_assoc]
    rfl

/-- The tree, for the renderer; `name` finds the elements that are named by numbers, and `el` translates them. -/
def back (el : Any → El) (name : Nat → Any) : Forest Elem → List El
  | .nil => []
  | .cons (.sect s) kids rest => .sect s.level [("id", .str s.id)] (s.title.map titleEl) (back el name kids) :: back el name rest
  | .cons (.block n _) _ rest => el (name n) :: back el name rest
  | .cons _ _ rest => .other :: back el name rest

/-- The elements of the document: a section contains what follows its title, up to the next title whose level is not greater. -/
def tree (el : Item → El) : List (Item × Text) → List El
  | [] => []
  | (.block b, _) :: xs => el (.block b) :: tree el xs
  | (.list n ns, _) :: xs => el (.list n ns) :: tree el xs
  | (.heading h, id) :: xs =>
    .sect h.level [("id", .str id)] [.str h.title] (tree el (xs.takeWhile (deeper h.level))) :: tree el (xs.dropWhile (deeper h.level))
termination_by xs => xs.length
decreasing_by
  · simp
  · simp
  · have := takeWhile_length (deeper h.level) xs; simp only [List.length_cons]; omega
  · have := dropWhile_length (deeper h.level) xs; simp only [List.length_cons]; omega

theorem below_deeper (fin : Item → Any) (num : Any → Nat) (n : Nat) (y : Item × Text) : Nested.below n (elemOf fin num y) = deeper n y := by
  obtain ⟨x, id⟩ := y
  cases x with
  | block b => rfl
  | list n ns => rfl
  | heading h =>
    show decide ((n : Int) < (h.level : Int)) = decide (n < h.level)
    exact decide_eq_decide.mpr Int.ofNat_lt

/-- The tree that is built is the tree of sections. -/
theorem back_tree (el : Any → El) (fin : Item → Any) (num : Any → Nat) (name : Nat → Any) : ∀ (n : Nat) (ys : List (Item × Text)), ys.length ≤ n →
    (∀ y ∈ ys, name (num (fin y.1)) = fin y.1) → back el name (Nested.nest (ys.map (elemOf fin num))) = tree (fun x => el (fin x)) ys
  | _, [], _, _ => by rw [tree, List.map_nil, Nested.nest]; rfl
  | n + 1, (.block b, id) :: ys, hn, h => by
    have ih := back_tree el fin num name n ys (by simpa using hn) (fun y hm => h y (List.mem_cons_of_mem _ hm))
    rw [tree, List.map_cons, Nested.nest_other rfl, ← ih]
    show el (name _) :: _ = _
    rw [show name (num (fin (.block b))) = fin (.block b) from h _ List.mem_cons_self]
  | n + 1, (.list x xs, id) :: ys, hn, h => by
    have ih := back_tree el fin num name n ys (by simpa using hn) (fun y hm => h y (List.mem_cons_of_mem _ hm))
    rw [tree, List.map_cons, Nested.nest_other rfl, ← ih]
    show el (name _) :: _ = _
    rw [show name (num (fin (.list x xs))) = fin (.list x xs) from h _ List.mem_cons_self]
  | n + 1, (.heading hd, id) :: ys, hn, h => by
    have hn : ys.length ≤ n := by simpa using hn
    have h' : ∀ y ∈ ys, name (num (fin y.1)) = fin y.1 := fun y hm => h y (List.mem_cons_of_mem _ hm)
    have ih1 := back_tree el fin num name n (ys.takeWhile (deeper hd.level)) (Nat.le_trans (takeWhile_length _ _) hn) (fun y hm => h' y ((List.takeWhile_sublist _).mem hm))
    have ih2 := back_tree el fin num name n (ys.dropWhile (deeper hd.level)) (Nat.le_trans (dropWhile_length _ _) hn) (fun y hm => h' y ((List.dropWhile_sublist _).mem hm))
    rw [tree, List.map_cons]
    show back el name (Nested.nest (.sect ⟨hd.level, [.str hd.title], true, id⟩ :: _)) = _
    rw [Nested.nest_sect]
    show El.sect hd.level [("id", .str id)] [.str hd.title] (back el name (Nested.nest ((ys.map (elemOf fin num)).takeWhile (Nested.below hd.level)))) ::
      back el name (Nested.nest ((ys.map (elemOf fin num)).dropWhile (Nested.below hd.level))) = _
    rw [C63.map_takeWhile _ _ (deeper hd.level) (below_deeper fin num hd.level), C63.map_dropWhile _ _ (deeper hd.level) (below_deeper fin num hd.level), ih1, ih2]

/-! ### Rendering -/

/-- An element of the body that is not a section. -/
def Simple (e : El) : Prop := (∃ a xs, e = .paragraph a xs) ∨ (∃ k a xs, e = .block k a xs) ∨ ∃ k a xs, e = .list k a xs

theorem simple_number {e : El} (h : Simple e) (n : Nat) (pre : Text) : numberEl e false n pre = (false, n, []) := by
  rcases h with ⟨a, xs, rfl⟩ | ⟨k, a, xs, rfl⟩ | ⟨k, a, xs, rfl⟩ <;> rfl

/-- What the items with titles become are no sections. -/
def AllSimple (el : Item → El) (ys : List (Item × Text)) : Prop := ∀ y ∈ ys, (∀ h, y.1 ≠ .heading h) → Simple (el y.1)

/-- Sections are not numbered: nothing declares so. -/
theorem not_numbered (el : Item → El) : ∀ (m : Nat) (ys : List (Item × Text)), ys.length ≤ m → AllSimple el ys → ∀ n pre, numberEls (tree el ys) false n pre = (false, [])
  | _, [], _, _, _, _ => by rw [tree]; rfl
  | m + 1, (.block b, id) :: ys, hm, hs, n, pre => by
    have ih := not_numbered el m ys (by simpa using hm) (fun y hy => hs y (List.mem_cons_of_mem _ hy))
    have hb := simple_number (hs _ List.mem_cons_self (fun h => by simp)) n pre
    rw [tree]
    show ((numberEls (tree el ys) (numberEl (el (.block b)) false n pre).1 (numberEl (el (.block b)) false n pre).2.1 pre).1, _) = _
    rw [hb]
    show ((numberEls (tree el ys) false n pre).1, (numberEls (tree el ys) false n pre).2 ++ []) = _
    rw [ih]
    rfl
  | m + 1, (.list x xs, id) :: ys, hm, hs, n, pre => by
    have ih := not_numbered el m ys (by simpa using hm) (fun y hy => hs y (List.mem_cons_of_mem _ hy))
    have hb := simple_number (hs _ List.mem_cons_self (fun h => by simp)) n pre
    rw [tree]
    show ((numberEls (tree el ys) (numberEl (el (.list x xs)) false n pre).1 (numberEl (el (.list x xs)) false n pre).2.1 pre).1, _) = _
    rw [hb]
    show ((numberEls (tree el ys) false n pre).1, (numberEls (tree el ys) false n pre).2 ++ []) = _
    rw [ih]
    rfl
  | m + 1, (.heading h, id) :: ys, hm, hs, n, pre => by
    have hm : ys.length ≤ m := by simpa using hm
    have ih1 := not_numbered el m (ys.takeWhile (deeper h.level)) (Nat.le_trans (takeWhile_length _ _) hm) (fun y hy => hs y (List.mem_cons_of_mem _ ((List.takeWhile_sublist _).mem hy)))
    have ih2 := not_numbered el m (ys.dropWhile (deeper h.level)) (Nat.le_trans (dropWhile_length _ _) hm) (fun y hy => hs y (List.mem_cons_of_mem _ ((List.dropWhile_sublist _).mem hy)))
    rw [tree]
    have hs : numberEl (.sect h.level [("id", .str id)] [.str h.title] (tree el (ys.takeWhile (deeper h.level)))) false n pre = (false, n, []) := by
      show ((numberEls (tree el (ys.takeWhile (deeper h.level))) false 0 ".".toList).1, n, (numberEls (tree el (ys.takeWhile (deeper h.level))) false 0 ".".toList).2) = _
      rw [ih1]
    show ((numberEls (tree el (ys.dropWhile _)) (numberEl _ false n pre).1 (numberEl _ false n pre).2.1 pre).1, _ ++ (numberEl _ false n pre).2.2) = _
    rw [hs]
    show ((numberEls (tree el (ys.dropWhile (deeper h.level))) false n pre).1, (numberEls (tree el (ys.dropWhile (deeper h.level))) false n pre).2 ++ []) = _
    rw [ih2]
    rfl

theorem simple_body {e : El} (h : Simple e) : (∃ a xs, e = .paragraph a xs) ∨ (∃ k a xs, e = .block k a xs) ∨ (∃ l a t xs, e = .sect l a t xs) ∨ ∃ k a xs, e = .list k a xs := by
  rcases h with h | h | h
  · exact .inl h
  · exact .inr (.inl h)
  · exact .inr (.inr (.inr h))

theorem tree_body (el : Item → El) : ∀ (m : Nat) (ys : List (Item × Text)), ys.length ≤ m → AllSimple el ys → Body (tree el ys)
  | _, [], _, _ => by rw [tree]; exact fun _ h => nomatch h
  | m + 1, (.block b, id) :: ys, hm, hs => by
    have ih := tree_body el m ys (by simpa using hm) (fun y hy => hs y (List.mem_cons_of_mem _ hy))
    rw [tree]
    intro e he
    rcases List.mem_cons.mp he with rfl | he
    · exact simple_body (hs _ List.mem_cons_self (fun h => by simp))
    · exact ih e he
  | m + 1, (.list x xs, id) :: ys, hm, hs => by
    have ih := tree_body el m ys (by simpa using hm) (fun y hy => hs y (List.mem_cons_of_mem _ hy))
    rw [tree]
    intro e he
    rcases List.mem_cons.mp he with rfl | he
    · exact simple_body (hs _ List.mem_cons_self (fun h => by simp))
    · exact ih e he
  | m + 1, (.heading h, id) :: ys, hm, hs => by
    have ih := tree_body el m (ys.dropWhile (deeper h.level)) (Nat.le_trans (dropWhile_length _ _) (by simpa using hm))
      (fun y hy => hs y (List.mem_cons_of_mem _ ((List.dropWhile_sublist _).mem hy)))
    rw [tree]
    intro e he
    rcases List.mem_cons.mp he with rfl | he
    · exact .inr (.inr (.inl ⟨_, _, _, _, rfl⟩))
    · exact ih e he

/-- Blocks, lists and sections in HTML, for any HTML of blocks and lists. -/
def showing (lower : Text → Text) (u : Bool) (html : Item → Text) : List (Item × Text) → Text
  | [] => []
  | (.block b, _) :: xs => html (.block b) ++ showing lower u html xs
  | (.list n ns, _) :: xs => html (.list n ns) ++ showing lower u html xs
  | (.heading h, id) :: xs =>
    sectionHtml lower u h id (showing lower u html (xs.takeWhile (deeper h.level))) ++ showing lower u html (xs.dropWhile (deeper h.level))
termination_by xs => xs.length
decreasing_by
  · simp
  · simp
  · have := takeWhile_length (deeper h.level) xs; simp only [List.length_cons]; omega
  · have := dropWhile_length (deeper h.level) xs; simp only [List.length_cons]; omega

/-- An element is rendered to a text, in documents whose references are `refs`. -/
def Writes (refs : List (Text × AV)) (m : M Text) (u : Bool) (t : Text) : Prop :=
  ∀ c, Fine u c → c.numbers = [] → c.refs = refs → ∃ k, m c = .ok (t, { c with counters := k })

section
variable {L : Lib} {u : Bool} {refs : List (Text × AV)}

theorem writes_cons {n : Nat} {e : El} {es : List El} {t t' : Text} (h1 : Writes refs (renderElement L n e) u t) (h2 : Writes refs (renderAll (renderElement L n) es) u t') :
    Writes refs (renderAll (renderElement L n) (e :: es)) u (t ++ t') := by
  intro c hc hn hr
  obtain ⟨k1, h1⟩ := h1 c hc hn hr
  obtain ⟨k2, h2⟩ := h2 _ (fine_counters hc k1) hn hr
  exact ⟨k2, (bind_ok h1).trans ((bind_ok h2).trans rfl)⟩

theorem tree_shows {R : Html.Rules} (hL : L.tmpl = Html.templatesOf R) {el : Item → El} {html : Item → Text} : ∀ (m : Nat) (ys : List (Item × Text)), ys.length ≤ m →
    (∀ y ∈ ys, (∀ h, y.1 = .heading h → h.Ok ∧ Safe y.2) ∧ ((∀ h, y.1 ≠ .heading h) → ∃ N, ∀ n, N ≤ n → Writes refs (renderElement L n (el y.1)) u (html y.1))) →
    ∃ N, ∀ n, N ≤ n → Writes refs (renderAll (renderElement L n) (tree el ys)) u (showing L.lower u html ys)
  | _, [], _, _ => ⟨0, fun _ _ c _ _ _ => ⟨c.counters, by rw [tree, showing]; rfl⟩⟩
  | m + 1, (.block b, id) :: ys, hm, hy => by
    obtain ⟨N2, h2⟩ := tree_shows hL m ys (by simpa using hm) (fun y h => hy y (List.mem_cons_of_mem _ h))
    obtain ⟨N1, h1⟩ := (hy _ List.mem_cons_self).2 (fun h => by simp)
    refine ⟨max N1 N2, fun n hn => ?_⟩
    rw [tree, showing]
    exact writes_cons (h1 n (by omega)) (h2 n (by omega))
  | m + 1, (.list x xs, id) :: ys, hm, hy => by
    obtain ⟨N2, h2⟩ := tree_shows hL m ys (by simpa using hm) (fun y h => hy y (List.mem_cons_of_mem _ h))
    obtain ⟨N1, h1⟩ := (hy _ List.mem_cons_self).2 (fun h => by simp)
    refine ⟨max N1 N2, fun n hn => ?_⟩
    rw [tree, showing]
    exact writes_cons (h1 n (by omega)) (h2 n (by omega))
  | m + 1, (.heading h, id) :: ys, hm, hy => by
    have hm : ys.length ≤ m := by simpa using hm
    obtain ⟨N1, h1⟩ := tree_shows hL m (ys.takeWhile (deeper h.level)) (Nat.le_trans (takeWhile_length _ _) hm) (fun y h => hy y (List.mem_cons_of_mem _ ((List.takeWhile_sublist _).mem h)))
    obtain ⟨N2, h2⟩ := tree_shows hL m (ys.dropWhile (deeper h.level)) (Nat.le_trans (dropWhile_length _ _) hm) (fun y h => hy y (List.mem_cons_of_mem _ ((List.dropWhile_sublist _).mem h)))
    refine ⟨max (N1 + 2) N2, fun n hn => ?_⟩
    obtain ⟨k, rfl⟩ := Nat.exists_eq_add_of_le' (show 2 ≤ n by omega)
    rw [tree, showing]
    refine writes_cons (fun c hc hn hr => ?_) (h2 (k + 2) (by omega))
    obtain ⟨hok, hsafe⟩ := (hy _ List.mem_cons_self).1 h rfl
    obtain ⟨k', hk⟩ := h1 (k + 1) (by omega) c hc hn hr
    exact ⟨k', C63.section_at hL k hok hsafe hc hn hk⟩

end

end C69
end Verif
