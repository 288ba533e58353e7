import Verif.Props.SectionTree
import Verif.Props.ListStages

/-!
# C63 — Documents with sections, from the text to the page
-/
namespace Verif
namespace C63
open Sectioned
open Walk (Any)
open Composed (Block)
open Rend hiding Item bind_ok

/-! ### The stages, one by one -/

/-- An item after the content of blocks is parsed. -/
def refined : Item → Any
  | .block b => C62.refined b
  | .heading h => element (.heading h)
  | .list n ns => element (.list n ns)

/-- An item after the substitutions. -/
def content : Item → Any
  | .block b => C62.content b
  | .heading h => element (.heading h)
  | .list n ns => C64.content (n :: ns)

/-- An item after lists are arranged. -/
def placed : Item → Any
  | .block b => C62.content b
  | .heading h => element (.heading h)
  | .list n ns => C64.arranged (n :: ns)

theorem refine_item {D : Refine.Reader} {alnum : Char → Bool} (hD : C62.ReadsBlocks D alnum) {x : Item} (h : x.Ok alnum) : ∃ N, ∀ n, N ≤ n →
    Refine.refine D n (element x) = .done (refined x) := by
  cases x with
  | block b => exact C62.refine_block hD h
  | heading hd => exact ⟨1, fun n hn => by obtain ⟨m, rfl⟩ := Nat.exists_eq_add_of_le' hn; rfl⟩
  | list n ns => exact C64.refine_list D _

/-- The title of a section is left as it is. -/
theorem substituted_heading (W : Walk.World) (c : Walk.Ctx) (opts : List Walk.Opt) {h : Heading} (hh : h.Ok) :
    Walk.substOne W c opts (element (.heading h)) = .ok (element (.heading h), c) := by
  have ht : Walk.substTitle W c [.str h.title] = .ok ([.str h.title], c.counters) := by
    unfold Walk.substTitle Walk.replaceAndReparse
    rw [C59.replace_textual (fun e he => .inl ⟨h.title, List.mem_singleton.mp he⟩)]
    rfl
  have htr : Walk.trimSpaces h.title = h.title := by
    have hne := hh.some_
    have hl := hh.last _ (List.getLast?_eq_some_getLast hne)
    unfold Walk.trimSpaces
    rw [show h.title.reverse = h.title.getLast hne :: h.title.dropLast.reverse by
      conv => lhs; rw [← List.dropLast_concat_getLast hne]
      rw [List.reverse_append]; rfl]
    rw [List.dropWhile_cons_of_neg, List.reverse_cons, List.reverse_reverse, List.dropLast_concat_getLast]
    intro e
    rw [eq_of_beq e] at hl
    revert hl; decide
  have hs : Walk.setSectionTitle W [] [.str h.title] = .ok ([], [.str h.title]) := by
    show Except.ok ([], if Walk.trimSpaces h.title = [] then _ else [] ++ [Any.str (Walk.trimSpaces h.title)]) = _
    rw [htr, if_neg hh.some_]
    rfl
  show (match Walk.substAttrs W c [] [] with
    | .error b => Except.error b
    | .ok a => match Walk.substTitle W c [.str h.title] with
      | .error b => .error b
      | .ok (title, cs) => match Walk.setSectionTitle W a title with
        | .error b => .error b
        | .ok (a, title) => .ok (Any.section h.level a title, { c with counters := cs })) = _
  rw [show Walk.substAttrs W c [] [] = .ok [] from rfl]
  dsimp only
  rw [ht]
  dsimp only
  rw [hs]
  rfl

theorem substituted_item {W : Walk.World} (hW : C59.Grammatical W) {alnum : Char → Bool} (c : Walk.Ctx) (opts : List Walk.Opt) {x : Item} (h : x.Ok alnum) (hp : x.Plain) :
    Walk.substOne W c opts (refined x) = .ok (content x, c) := by
  cases x with
  | block b => exact C62.substituted_block hW c opts h hp
  | heading hd => exact substituted_heading W c opts h
  | list n ns => exact C64.substituted_list hW c opts h hp

/-- There are no footnotes. -/
theorem no_footnotes (num : Any → Nat) (n : Foot.Notes) : ∀ xs : List Item, Foot.collectAll n (xs.map (fun x => [C62.footOf num (content x)])) =
    (n, xs.map (fun x => [C62.footOf num (content x)]))
  | [] => rfl
  | x :: xs => by
    have h : Foot.substAll n [C62.footOf num (content x)] = (n, [C62.footOf num (content x)]) := by
      cases x with
      | block b =>
        have := C62.no_footnotes num n [b]
        have := (Prod.mk.inj (show ((Foot.substAll n [C62.footOf num (C62.content b)]).1, [(Foot.substAll n [C62.footOf num (C62.content b)]).2]) =
          (n, [[C62.footOf num (C62.content b)]]) from this))
        exact Prod.ext this.1 (List.cons.inj this.2).1
      | heading hd => rfl
      | list y ys => exact C64.no_footnotes num n (y :: ys)
    show ((Foot.collectAll (Foot.substAll n _).1 _).1, (Foot.substAll n _).2 :: (Foot.collectAll (Foot.substAll n _).1 _).2) = _
    rw [h, no_footnotes num n xs]
    rfl

/-- Not a blank line. -/
def seen : Item → Bool
  | .block (.blank _) => false
  | _ => true

/-- Lists are arranged. -/
theorem placed_item {alnum : Char → Bool} (num : Any → Nat) {x : Item} (h : x.Ok alnum) : Lists.arrangeEls [C62.listOf num (content x)] = some [C62.arrangedOf num (placed x)] := by
  cases x with
  | block b => exact C62.no_list_one num b
  | heading hd => rfl
  | list n ns =>
    show (match Lists.arrangeEl (C62.listOf num (C64.content (n :: ns))), some [] with
      | some a, some b => some (a :: b)
      | _, _ => none) = _
    rw [C64.arrange_list num h]
    rfl

theorem filter_document {alnum : Char → Bool} (num : Any → Nat) : ∀ xs : List Item, (∀ x ∈ xs, x.Ok alnum) → (xs.map placed).flatMap (fun e => Filter.filterOut [C62.filterOf num e]) =
    ((xs.filter seen).map finalItem).map (C62.filterOf num)
  | [], _ => rfl
  | x :: xs, hok => by
    have ih := filter_document num xs (fun y hy => hok y (List.mem_cons_of_mem _ hy))
    rw [List.map_cons, List.flatMap_cons, ih]
    cases x with
    | heading h =>
      rw [List.filter_cons_of_pos rfl]
      show Filter.filterOut [.leaf _] ++ _ = _
      rw [show ∀ k, Filter.filterOut [.leaf k] = [.leaf k] from fun k => by simp [Filter.filterOut, Filter.isNoise, Filter.inside, Filter.isEmptyHeader]]
      rfl
    | list n ns =>
      rw [List.filter_cons_of_pos rfl]
      show Filter.filterOut [C62.filterOf num (C64.arranged (n :: ns))] ++ _ = _
      rw [C64.filter_list num (hok _ List.mem_cons_self)]
      rfl
    | block b =>
      have hb := C62.filter_document num [b]
      rw [List.flatMap_cons, List.flatMap_nil, List.append_nil] at hb
      show Filter.filterOut [C62.filterOf num (C62.content b)] ++ _ = _
      rw [hb]
      cases b <;> rfl

/-! ### Blank lines do not show -/

theorem takeWhile_filter {α : Type} {p q : α → Bool} (h : ∀ x, p x = false → q x = true) : ∀ l : List α, (l.filter p).takeWhile q = (l.takeWhile q).filter p
  | [] => rfl
  | x :: l => by
    have ih := takeWhile_filter h l
    cases hp : p x with
    | false => rw [List.filter_cons_of_neg (by simp [hp]), List.takeWhile_cons_of_pos (h x hp), List.filter_cons_of_neg (by simp [hp]), ih]
    | true =>
      rw [List.filter_cons_of_pos hp]
      cases hq : q x with
      | false => rw [List.takeWhile_cons_of_neg (by simp [hq]), List.takeWhile_cons_of_neg (by simp [hq])]; rfl
      | true => rw [List.takeWhile_cons_of_pos hq, List.takeWhile_cons_of_pos hq, List.filter_cons_of_pos hp, ih]

theorem dropWhile_filter {α : Type} {p q : α → Bool} (h : ∀ x, p x = false → q x = true) : ∀ l : List α, (l.filter p).dropWhile q = (l.dropWhile q).filter p
  | [] => rfl
  | x :: l => by
    have ih := dropWhile_filter h l
    cases hp : p x with
    | false => rw [List.filter_cons_of_neg (by simp [hp]), List.dropWhile_cons_of_pos (h x hp), ih]
    | true =>
      rw [List.filter_cons_of_pos hp]
      cases hq : q x with
      | false => rw [List.dropWhile_cons_of_neg (by simp [hq]), List.dropWhile_cons_of_neg (by simp [hq]), List.filter_cons_of_pos hp]
      | true => rw [List.dropWhile_cons_of_pos hq, List.dropWhile_cons_of_pos hq, ih]

theorem blank_deeper (n : Nat) (y : Item × Text) (h : seen y.1 = false) : deeper n y = true := by
  obtain ⟨x, id⟩ := y
  cases x with
  | block b => rfl
  | heading hd => cases h
  | list n ns => cases h

theorem html_filter (lower : Text → Text) (u : Bool) : ∀ (m : Nat) (ys : List (Item × Text)), ys.length ≤ m → html lower u (ys.filter (fun y => seen y.1)) = html lower u ys
  | _, [], _ => rfl
  | m + 1, (.block b, id) :: ys, hm => by
    have ih := html_filter lower u m ys (by simpa using hm)
    cases hb : seen (.block b) with
    | true => rw [List.filter_cons_of_pos (by exact hb), html, html, ih]
    | false =>
      rw [List.filter_cons_of_neg (by simp [hb]), ih, html]
      cases b with
      | blank w => rfl
      | para l ls => cases hb
      | verb k f ls => cases hb
      | comp k f bs => cases hb
  | m + 1, (.list x xs, id) :: ys, hm => by
    have ih := html_filter lower u m ys (by simpa using hm)
    rw [List.filter_cons_of_pos rfl, html, html, ih]
  | m + 1, (.heading h, id) :: ys, hm => by
    have hm : ys.length ≤ m := by simpa using hm
    have ih1 := html_filter lower u m (ys.takeWhile (deeper h.level)) (Nat.le_trans (takeWhile_length _ _) hm)
    have ih2 := html_filter lower u m (ys.dropWhile (deeper h.level)) (Nat.le_trans (dropWhile_length _ _) hm)
    rw [List.filter_cons_of_pos rfl, html, html, takeWhile_filter (blank_deeper h.level), dropWhile_filter (blank_deeper h.level), ih1, ih2]

theorem named_filter (alnum : Char → Bool) : ∀ (xs : List Item) (used : List Text), named alnum used (xs.filter seen) = (named alnum used xs).filter (fun y => seen y.1)
  | [], _ => rfl
  | .block b :: xs, used => by
    have ih := named_filter alnum xs used
    cases hb : seen (.block b) with
    | true =>
      rw [List.filter_cons_of_pos hb]
      show (Item.block b, []) :: _ = List.filter _ ((Item.block b, []) :: _)
      rw [List.filter_cons_of_pos (by exact hb), ih]
    | false =>
      rw [List.filter_cons_of_neg (by simp [hb])]
      show _ = List.filter _ ((Item.block b, []) :: _)
      rw [List.filter_cons_of_neg (by simp [hb]), ih]
  | .list n ns :: xs, used => by
    have ih := named_filter alnum xs used
    rw [List.filter_cons_of_pos rfl]
    show (Item.list n ns, []) :: _ = List.filter _ ((Item.list n ns, []) :: _)
    rw [List.filter_cons_of_pos rfl, ih]
  | .heading h :: xs, used => by
    have ih := named_filter alnum xs
    rw [List.filter_cons_of_pos rfl]
    show (Item.heading h, _) :: _ = List.filter _ ((Item.heading h, _) :: _)
    rw [List.filter_cons_of_pos rfl, ih]

theorem page_filter (lower : Text → Text) (alnum : Char → Bool) (u : Bool) (xs : List Item) : page lower alnum u (xs.filter seen) = page lower alnum u xs := by
  unfold page
  rw [named_filter, html_filter lower u _ _ (Nat.le_refl _)]

theorem trimmed_filter (xs : List Item) : (trimmed xs).filter seen = xs.filter seen := by
  unfold trimmed
  split
  · next h =>
    conv => rhs; rw [← List.dropLast_append_getLast? _ h]
    rw [List.filter_append]
    show _ = _ ++ []
    rw [List.append_nil]
  · rfl

theorem mem_trimmed {xs : List Item} {x : Item} (h : x ∈ trimmed xs) : x ∈ xs := by
  unfold trimmed at h
  split at h
  · exact List.mem_of_mem_dropLast h
  · exact h

theorem good_mem {alnum : Char → Bool} : ∀ {xs : List Item}, Good alnum xs → ∀ x ∈ xs, x.Ok alnum
  | [], _, _, h => nomatch h
  | _ :: _, h, b, hb => by
    rcases List.mem_cons.mp hb with rfl | hb
    · exact h.1
    · exact good_mem h.2.2 b hb

theorem named_mem {alnum : Char → Bool} : ∀ {xs : List Item} {used : List Text}, ∀ y ∈ named alnum used xs, y.1 ∈ xs
  | [], _, _, h => nomatch h
  | .block b :: xs, used, y, h => by
    rcases List.mem_cons.mp h with rfl | h
    · exact List.mem_cons_self
    · exact List.mem_cons_of_mem _ (named_mem y h)
  | .list n ns :: xs, used, y, h => by
    rcases List.mem_cons.mp h with rfl | h
    · exact List.mem_cons_self
    · exact List.mem_cons_of_mem _ (named_mem y h)
  | .heading hd :: xs, used, y, h => by
    rcases List.mem_cons.mp h with rfl | h
    · exact List.mem_cons_self
    · exact List.mem_cons_of_mem _ (named_mem y h)

/-! ### The table of contents -/

theorem entries_of {refs : List (Text × AV)} : ∀ f : Forest Verif.Toc, (∀ t ∈ f.flatten, ∃ x, refs.lookup t.id = some (.els [.str x])) → Entries refs (backToc f)
  | .nil, _ => trivial
  | .cons t kids rest, h => by
    refine ⟨⟨h t List.mem_cons_self, entries_of kids fun x hx => h x ?_⟩, entries_of rest fun x hx => h x ?_⟩
    · exact List.mem_cons_of_mem _ (List.mem_append_left _ hx)
    · exact List.mem_cons_of_mem _ (List.mem_append_right _ hx)

theorem flatten_toc (m : Int) : ∀ (ts : List Verif.Toc) (f : Forest Verif.Toc), ∀ t ∈ (ts.foldl (fun f t => tocAdd m t f) f).flatten, t ∈ ts ∨ t ∈ f.flatten
  | [], _, _, h => .inr h
  | t' :: ts, f, t, h => by
    rcases flatten_toc m ts _ t h with h | h
    · exact .inl (List.mem_cons_of_mem _ h)
    · rw [C16.flatten_tocAdd] at h
      rcases List.mem_append.mp h with h | h
      · exact .inr h
      · split at h
        · rw [List.mem_singleton] at h
          exact .inl (by rw [h]; exact List.mem_cons_self)
        · cases h

theorem lookup_refs : ∀ (refs : Refs), (∀ p ∈ refs, ∃ x, p.2 = .sect [.str x]) → ∀ id ∈ refs.map Prod.fst, ∃ x, (backRefs refs).lookup id = some (.els [.str x])
  | [], _, _, h => nomatch h
  | (k, v) :: refs, hv, id, h => by
    obtain ⟨x, rfl⟩ := (show ∃ x, v = .sect [.str x] from hv _ List.mem_cons_self)
    show ∃ x, List.lookup id ((k, AV.els [.str _]) :: backRefs refs) = _
    rw [List.lookup_cons]
    cases hk : (id == k) with
    | true => exact ⟨x, rfl⟩
    | false =>
      refine lookup_refs refs (fun p hp => hv p (List.mem_cons_of_mem _ hp)) id ?_
      rcases List.mem_cons.mp h with e | h
      · rw [e, beq_self_eq_true] at hk; cases hk
      · exact h

theorem refs_shape (ys : List (Item × Text)) : ∀ p ∈ (ys.filterMap refOf).reverse, ∃ x, p.2 = RefTitle.sect [.str x] := by
  intro p hp
  rw [List.mem_reverse, List.mem_filterMap] at hp
  obtain ⟨⟨x, id⟩, _, h⟩ := hp
  cases x with
  | block b => cases h
  | list n ns => cases h
  | heading hd => cases h; exact ⟨_, rfl⟩

theorem toc_recorded (ys : List (Item × Text)) : ∀ t ∈ ys.filterMap tocOf, t.id ∈ ((ys.filterMap refOf).reverse).map Prod.fst := by
  intro t ht
  rw [List.mem_filterMap] at ht
  obtain ⟨⟨x, id⟩, hm, h⟩ := ht
  cases x with
  | block b => cases h
  | list n ns => cases h
  | heading hd =>
    cases h
    exact List.mem_map.mpr ⟨(id, .sect [.str hd.title]), List.mem_reverse.mpr (List.mem_filterMap.mpr ⟨_, hm, rfl⟩), rfl⟩

/-- The top of the tree. -/
def tops : Forest Elem → List Elem
  | .nil => []
  | .cons e _ rest => e :: tops rest

theorem tops_nest : ∀ (m : Nat) (es : List Elem), es.length ≤ m → ∀ e ∈ tops (Nested.nest es), e ∈ es
  | _, [], _, e, h => by rw [Nested.nest] at h; cases h
  | m + 1, e' :: es, hm, e, h => by
    have hm' : es.length ≤ m := by simpa using hm
    cases hl : e'.level? with
    | none =>
      rw [Nested.nest_other hl] at h
      rcases List.mem_cons.mp h with rfl | h
      · exact List.mem_cons_self
      · exact List.mem_cons_of_mem _ (tops_nest m es hm' e h)
    | some l =>
      obtain ⟨s, rfl⟩ : ∃ s, e' = .sect s := by cases e' <;> first | exact ⟨_, rfl⟩ | cases hl
      rw [Nested.nest_sect] at h
      rcases List.mem_cons.mp h with rfl | h
      · exact List.mem_cons_self
      · exact List.mem_cons_of_mem _ ((List.dropWhile_sublist _).mem (tops_nest m _ (Nat.le_trans (List.dropWhile_sublist _).length_le hm') e h))

theorem no_preamble {es : List Elem} (h : ∀ e ∈ es, (∃ s, e = .sect s) ∨ ∃ n r, e = .block n r) : insertPreamble es = es.map .elem := by
  have hd : docHeader es = none := by
    cases es with
    | nil => rfl
    | cons e es => rcases h e List.mem_cons_self with ⟨s, rfl⟩ | ⟨n, r, rfl⟩ <;> rfl
  unfold insertPreamble newPreamble
  rw [hd]

/-! ### From the text to the page -/

/-- The stages of a conversion (libasciidoc.go:50-98, document_processing.go:16-46): the text `src` is preprocessed; the result is cut into items, each one a
fragment; the content of blocks is parsed; substitutions are applied; footnotes are collected; lists are arranged; blank lines are filtered out; what
remains is aggregated into a tree, and rendered. `num` names elements for the stages whose models do not look at them, and `name` finds them again. -/
structure Stages {σ : Type} (env : Env) (files : Nat) (ctx : Verif.Ctx) (S : Peg.Sem σ) (A : Peg.Code σ) (s : σ) (D : Refine.Reader) (W : Walk.World)
    (c : Walk.Ctx) (fmt : Val → Text) (pa : CtxAttrs) (L : Lib) (cfg : Config) (src : Text) (html : Text) where
  text : Text
  items : List Any
  refined : List Any
  contents : List Any
  placed : List Any
  kept : List Any
  doc : Doc
  preprocessed : preprocess env (files + 1) ctx src = .ok (text, ctx.offsets)
  parsed : ∃ depth rounds, FragmentLoop.loopV S A (fun _ => false) depth rounds s text = some ⟨items.map (fun b => [b]), .endOfDocument, []⟩
  same : refined.length = items.length
  found : ∀ p ∈ items.zip refined, ∃ N, ∀ n, N ≤ n → Refine.refineFragment D n (.elements [p.1]) = .done (.elements [p.2])
  same' : contents.length = refined.length
  substituted : ∀ p ∈ refined.zip contents, Walk.substFragment W c (.elements [p.1]) = .ok (.elements [p.2], c)
  footnotes : ∀ num notes, Foot.collectAll notes (contents.map (fun e => [C62.footOf num e])) = (notes, contents.map (fun e => [C62.footOf num e]))
  same'' : placed.length = contents.length
  lists : ∀ num, ∀ p ∈ contents.zip placed, Lists.arrangeEls [C62.listOf num p.1] = some [C62.arrangedOf num p.2]
  filtered : ∀ num, placed.flatMap (fun e => Filter.filterOut [C62.filterOf num e]) = kept.map (C62.filterOf num)
  aggregated : ∀ (num : Any → Nat) (name : Nat → Any), (∀ e ∈ kept, name (num e) = e) →
    let st := aggregateDoc (C59.alnum S) fmt pa (kept.map (secOf num))
    back name st.agg.tree = doc.elements ∧ backRefs st.refs = doc.refs ∧ tocField st.toc = doc.toc ∧ doc.footnotes = [] ∧
      insertPreamble (tops st.agg.tree) = (tops st.agg.tree).map .elem
  rendered : ∃ N, ∀ n, N ≤ n → render L n doc cfg = .ok html

theorem alnum_false {σ : Type} {S : Peg.Sem σ} (hS : C59.Code S) (c : Char) (h : (decide (c.toNat < 128) && !(c.isAlpha || c.isDigit)) = true) : C59.alnum S c = false := by
  cases h' : C59.alnum S c with
  | false => rfl
  | true =>
    rw [Bool.and_eq_true] at h
    exact absurd rfl (C59.alnum_not hS h' (of_decide_eq_true h.1) (by simpa using h.2))

/-- What remains of a document for the page, each section with its identifier. -/
def shown (alnum : Char → Bool) (xs : List Item) : List (Item × Text) := named alnum [] (xs.filter seen)

/-- The table of contents. -/
def tocTree (alnum : Char → Bool) (depth : Int) (xs : List Item) : Forest Verif.Toc := ((shown alnum xs).filterMap tocOf).foldl (fun f t => tocAdd depth t f) .nil

/-- The document, for the renderer. -/
def docOf (alnum : Char → Bool) (depth : Int) (xs : List Item) : Doc :=
  ⟨tree (shown alnum xs), backRefs (((shown alnum xs).filterMap refOf).reverse ++ []), [], tocField (tocTree alnum depth xs)⟩

theorem neat_shown {σ : Type} {S : Peg.Sem σ} (hS : C59.Code S) {xs : List Item} (hg : Good (C59.alnum S) xs) : Neat (C59.alnum S) (shown (C59.alnum S) xs) := by
  intro y hy
  have hm : y.1 ∈ xs.filter seen := named_mem y hy
  obtain ⟨hx, hsn⟩ := List.mem_filter.mp hm
  refine ⟨fun b e => ⟨?_, ?_⟩, fun h e => ?_, fun n ns e => ?_, named_safe ?_ _ [] y hy⟩
  · have := good_mem hg _ hx; rw [e] at this; exact this
  · rintro w rfl; rw [e] at hsn; cases hsn
  · have := good_mem hg _ hx; rw [e] at this; exact this
  · have := good_mem hg _ hx; rw [e] at this; exact this
  · intro d hd
    refine alnum_false hS d ?_
    have : (['\x00', '"', '\'', '&', '<', '>'] : List Char).all (fun d => decide (d.toNat < 128) && !(d.isAlpha || d.isDigit)) = true := by decide
    exact List.all_eq_true.mp this d hd

/-- The stages before rendering. -/
theorem stages_of {σ τ : Type} {env : Env} {S0 : Peg.Sem τ} {elem : τ → Option RawElem} {sects within0 : τ → Bool} (hE : C50.Reads env S0 elem sects within0)
    (files : Nat) {ctx : Verif.Ctx} (hroot : ctx.sectEnabled = false) {S : Peg.Sem σ} {A : Peg.Code σ} {len : σ → Nat} {within : σ → Bool} (hS : C59.Code S)
    (hP : Place S within) (hI : C64.ListCode S) (hlen : C49.LenCode S len) (hA : Actions.Obeys A) {s : σ} (hs : within s = false) {D : Refine.Reader} (hD : C62.ReadsBlocks D (C59.alnum S))
    {W : Walk.World} (hW : C59.Grammatical W) (c : Walk.Ctx) (fmt : Val → Text) {pa : CtxAttrs} (h1 : AMap.get pa.all "idprefix" = none)
    (h2 : AMap.get pa.all "idseparator" = none) {L : Lib} {cfg : Config}
    {xs : List Item} (hg : Good (C59.alnum S) xs) (hu : ∀ l ∈ lines xs, C50.Untouched l) (hp : ∀ x ∈ xs, x.Plain) {out : Text}
    (hr : ∃ N, ∀ n, N ≤ n → render L n (docOf (C59.alnum S) (AState.init pa).maxDepth xs) cfg = .ok out) :
    Nonempty (Stages env files ctx S A s D W c fmt pa L cfg (source xs) out) := by
  let zs := xs.filter seen
  let ys := named (C59.alnum S) [] zs
  let st : AState :=
    { attrs := pa, refs := (ys.filterMap refOf).reverse ++ [], agg := (ys.map (elemOf (fun _ => 0))).foldl Agg.append Agg.init,
      toc := (ys.filterMap tocOf).foldl (fun f t => tocAdd (AState.init pa).maxDepth t f) .nil, maxDepth := (AState.init pa).maxDepth }
  refine ⟨⟨joinLF (lines xs), (trimmed xs).map element, (trimmed xs).map refined, (trimmed xs).map content, (trimmed xs).map placed, zs.map finalItem,
    ⟨tree ys, backRefs st.refs, [], tocField st.toc⟩,
    C50.document_unchanged hE files ctx hroot (lines xs) hu, ?_, by simp, ?_, by simp, ?_, ?_, by simp, ?_, ?_, ?_, hr⟩⟩
  · rw [List.map_map]
    exact sections_preprocessed hS hP hI hlen hA hg hs
  · intro p hm
    rw [List.zip_map', List.mem_map] at hm
    obtain ⟨x, hx, rfl⟩ := hm
    obtain ⟨N, hN⟩ := refine_item hD (good_mem hg x (mem_trimmed hx))
    refine ⟨N, fun n hn => ?_⟩
    show (match Refine.refineAll (Refine.refine D n) [element x] with
      | .done es => Refine.Out.done (Walk.Fragment.elements es)
      | .error => .done .error
      | .more => .more) = _
    rw [Refine.refineAll, hN n hn]
    rfl
  · intro p hm
    rw [List.zip_map', List.mem_map] at hm
    obtain ⟨x, hx, rfl⟩ := hm
    have := C62.single (substituted_item hW c [] (good_mem hg x (mem_trimmed hx)) (hp x (mem_trimmed hx)))
    show Walk.substFragment W c (.elements [refined x]) = _
    simp only [Walk.substFragment, this]
  · intro num notes
    rw [List.map_map]
    exact no_footnotes num notes (trimmed xs)
  · intro num p hm
    rw [List.zip_map', List.mem_map] at hm
    obtain ⟨x, hx, rfl⟩ := hm
    exact placed_item num (good_mem hg x (mem_trimmed hx))
  · intro num
    rw [filter_document num (trimmed xs) (fun x hx => good_mem hg x (mem_trimmed hx)), trimmed_filter]
  · intro num name hname
    have hagg := aggregated (alnum_false hS '_' (by decide)) (alnum_false hS ' ' (by decide)) fmt num zs (AState.init pa) h1 h2
    have hag : aggregateDoc (C59.alnum S) fmt pa ((zs.map finalItem).map (secOf num)) =
        { st with agg := (ys.map (elemOf num)).foldl Agg.append Agg.init } := by
      unfold aggregateDoc
      rw [List.map_map]
      exact hagg
    rw [hag]
    have htree : ((ys.map (elemOf num)).foldl Agg.append Agg.init).tree = Nested.nest (ys.map (elemOf num)) := Nested.tree_nest _
    refine ⟨?_, rfl, rfl, rfl, ?_⟩
    · show back name ((ys.map (elemOf num)).foldl Agg.append Agg.init).tree = tree ys
      rw [htree]
      refine back_tree num name _ ys (Nat.le_refl _) (fun y hm => ?_)
      exact hname _ (List.mem_map.mpr ⟨y.1, named_mem _ hm, rfl⟩)
    · show insertPreamble (tops ((ys.map (elemOf num)).foldl Agg.append Agg.init).tree) = (tops ((ys.map (elemOf num)).foldl Agg.append Agg.init).tree).map .elem
      rw [htree]
      refine no_preamble fun e he => ?_
      obtain ⟨⟨x, id⟩, _, rfl⟩ := List.mem_map.mp (tops_nest _ _ (Nat.le_refl _) e he)
      cases x with
      | block b => exact .inr ⟨_, _, rfl⟩
      | list n ns => exact .inr ⟨_, _, rfl⟩
      | heading h => exact .inl ⟨_, rfl⟩

/-- All entries of the table of contents have a title. -/
theorem entries_doc (alnum : Char → Bool) (depth : Int) (xs : List Item) : ∀ l, tocField (tocTree alnum depth xs) = some (some l) →
    Entries (backRefs (((shown alnum xs).filterMap refOf).reverse ++ [])) l := by
  intro l hl
  have hl' : l = backToc (tocTree alnum depth xs) := by
    unfold tocField at hl
    split at hl
    · cases hl
    · cases hl; rfl
  rw [hl']
  refine entries_of _ fun t ht => ?_
  rcases flatten_toc _ _ _ t ht with ht | ht
  · have hm := toc_recorded (shown alnum xs) t ht
    have := lookup_refs ((shown alnum xs).filterMap refOf).reverse (refs_shape _) t.id hm
    rw [← List.append_nil ((shown alnum xs).filterMap refOf).reverse] at this
    exact this
  · cases ht

/-- **C63**, **C64**: a document of sections, paragraphs, lists and delimited blocks without markup, from the text to the page: every section contains what
follows its title, up to the next title whose level is not greater; it gets an identifier made of the words of its title, the first one that is not yet
used; its title is shown in a heading of its level; the items of lists are shown in their order, each with the list in it; nothing else appears. -/
theorem text_to_page {σ τ : Type} {env : Env} {S0 : Peg.Sem τ} {elem : τ → Option RawElem} {sects within0 : τ → Bool} (hE : C50.Reads env S0 elem sects within0)
    (files : Nat) {ctx : Verif.Ctx} (hroot : ctx.sectEnabled = false) {S : Peg.Sem σ} {A : Peg.Code σ} {len : σ → Nat} {within : σ → Bool} (hS : C59.Code S)
    (hP : Place S within) (hI : C64.ListCode S) (hlen : C49.LenCode S len) (hA : Actions.Obeys A) {s : σ} (hs : within s = false) {D : Refine.Reader} (hD : C62.ReadsBlocks D (C59.alnum S))
    {W : Walk.World} (hW : C59.Grammatical W) (c : Walk.Ctx) (fmt : Val → Text) {pa : CtxAttrs} (h1 : AMap.get pa.all "idprefix" = none)
    (h2 : AMap.get pa.all "idseparator" = none) {L : Lib} {R : Html.Rules} (hL : L.tmpl = Html.templatesOf R) {cfg : Config} (hcfg : C60.Article L cfg)
    (hT : AMap.get cfg.attrs "toc" = none) {xs : List Item} (hg : Good (C59.alnum S) xs) (hu : ∀ l ∈ lines xs, C50.Untouched l) (hp : ∀ x ∈ xs, x.Plain) :
    Nonempty (Stages env files ctx S A s D W c fmt pa L cfg (source xs) (page L.lower (C59.alnum S) (getBoolD cfg.attrs "unicode" true) xs)) := by
  refine stages_of hE files hroot hS hP hI hlen hA hs hD hW c fmt h1 h2 hg hu hp ?_
  have hneat := neat_shown hS hg
  obtain ⟨N, hN⟩ := tree_shows (u := getBoolD cfg.attrs "unicode" true) hL _ (shown (C59.alnum S) xs) (Nat.le_refl _) hneat
  refine ⟨N + 1, fun n hn => ?_⟩
  obtain ⟨m, rfl⟩ := Nat.exists_eq_add_of_le' (show 1 ≤ n by omega)
  rw [← page_filter]
  exact page_of hcfg hT (tree_body _ hneat _ (Nat.le_refl _)) (not_numbered _ _ (Nat.le_refl _)) (entries_doc _ _ _) (hN (m + 1) (by omega))

/-! ### The hypotheses can be met -/

/-- The code of the grammar that is used: the state is the length of the delimiter; we are never in a block. -/
def sem : Peg.Sem Nat :=
  { C62.sem with
    pred := fun id s st t =>
      if id = 361 then (true, s)
      else if id = 363 then (decide (st.length - t.length ≤ 6), s)
      else if id = 260 then (decide (st.length - t.length ≤ 5), s)
      else if id = 270 then (decide (((st.take (st.length - t.length)).count '*') ≤ 5), s)
      else if id = 279 then (decide (2 ≤ st.length - t.length), s)
      else C62.sem.pred id s st t }

def changed (id : Nat) : Bool := [361, 363, 260, 270, 279].contains id

theorem sem_other {id : Nat} (h : changed id = false) (s : Nat) (st t : Text) : sem.pred id s st t = C62.sem.pred id s st t := by
  simp only [changed, List.contains_cons, Bool.or_eq_false_iff, beq_eq_false_iff_ne] at h
  unfold sem
  dsimp only
  rw [if_neg h.1, if_neg h.2.1, if_neg h.2.2.1, if_neg h.2.2.2.1, if_neg h.2.2.2.2.1]

theorem sem_len {id : Nat} (h : changed id = true) (s : Nat) (st t : Text) : (sem.pred id s st t).2 = s := by
  simp only [changed, List.contains_cons, List.contains_nil, Bool.or_false, Bool.or_eq_true, beq_iff_eq] at h
  rcases h with rfl | rfl | rfl | rfl | rfl <;> rfl

theorem consumed (w t : Text) : (w ++ t).length - t.length = w.length := by rw [List.length_append, Nat.add_sub_cancel]

theorem taken (w t : Text) : (w ++ t).take ((w ++ t).length - t.length) = w := by rw [consumed, List.take_left]

theorem count_blank {w : Text} (h : ∀ c ∈ w, Grammar.isBlank c = true) : w.count '*' = 0 := by
  rw [List.count_eq_zero]
  intro hm
  exact absurd (h _ hm) (by decide)

theorem sem_list : C64.ListCode sem where
  dots s k t _ := by
    show decide ((List.replicate k '.' ++ t).length - t.length ≤ 5) = _
    rw [consumed, List.length_replicate]
  dash s w t hw := by
    show decide (((w ++ '-' :: t).take ((w ++ '-' :: t).length - t.length)).count '*' ≤ 5) = true
    rw [show w ++ '-' :: t = (w ++ ['-']) ++ t by simp, taken, List.count_append, count_blank hw]
    rfl
  stars s w k t hw _ := by
    show decide (((w ++ (List.replicate k '*' ++ t)).take ((w ++ (List.replicate k '*' ++ t)).length - t.length)).count '*' ≤ 5) = _
    rw [← List.append_assoc, taken, List.count_append, count_blank hw, List.count_replicate_self, Nat.zero_add]
  colon s t _ := by
    show decide (2 ≤ (':' :: t).length - t.length) = false
    rw [show ':' :: t = [':'] ++ t from rfl, consumed]
    rfl

theorem sem_place : Place sem (fun _ => false) where
  top _ _ _ := rfl
  level s k t _ := by
    show decide ((List.replicate k '=' ++ t).length - t.length ≤ 6) = _
    rw [List.length_append, Nat.add_sub_cancel, List.length_replicate]
  pred_ _ _ _ _ := rfl
  state_ _ _ _ _ _ := rfl
  act_ _ _ _ _ := rfl
  restore_ _ _ _ := rfl

theorem sem_lenCode : C49.LenCode sem id where
  set x hx s p t := by
    have : changed x.1 = false := by
      have h : C49.setters.all (fun x => !changed x.1) = true := by decide
      exact Bool.not_eq_true' _ ▸ List.all_eq_true.mp h x hx
    rw [sem_other this]
    exact C62.sem_lenCode.set x hx s p t
  same x hx s p t := by
    have : changed x.1 = false := by
      have h : C49.matchers.all (fun x => !changed x.1) = true := by decide
      exact Bool.not_eq_true' _ ▸ List.all_eq_true.mp h x hx
    rw [sem_other this]
    exact C62.sem_lenCode.same x hx s p t
  pred_len i s st t hid := by
    cases h : changed i with
    | false =>
      rw [sem_other h]
      exact C62.sem_lenCode.pred_len i s st t hid
    | true => exact sem_len h s st t
  state_len _ _ _ _ := rfl
  act_len _ _ _ _ := rfl
  restore_len _ _ := rfl

theorem sem_code : C59.Code sem where
  fragment s st t := by
    rw [sem_other (by decide)]
    exact C62.sem_code.fragment s st t
  visible s p t := by
    rw [sem_other (by decide)]
    exact C62.sem_code.visible s p t
  others id hid s st t h := by
    have hf : changed id = false := by
      simp only [List.mem_cons, List.not_mem_nil, or_false] at hid
      rcases hid with rfl | rfl | rfl <;> decide
    rw [sem_other hf] at h
    exact C62.sem_code.others id hid s st t h
  label s l z r hz h1 h2 h3 := by
    rw [sem_other (by decide)]
    exact C62.sem_code.label s l z r hz h1 h2 h3
  ascii := C62.sem_code.ascii

/-- A paragraph before the first section; a title that is used again; a level that is skipped; a block in a section. -/
def sample : List Item :=
  [.block (.para ⟨"First".toList, []⟩ []),
   .block (.blank []),
   .heading ⟨1, " ".toList, "Getting started".toList, []⟩,
   .block (.blank []),
   .heading ⟨3, "  ".toList, "On Linux, at 9.30".toList, " ".toList⟩,
   .block (.para ⟨"Run it".toList, []⟩ []),
   .block (.blank []),
   .heading ⟨2, " ".toList, "Getting started".toList, []⟩,
   .block (.verb .listing ⟨4, [], []⟩ [⟨"== no title".toList, []⟩]),
   .heading ⟨1, " ".toList, "Getting started".toList, []⟩]

/-- What is written. -/
theorem sample_source : source sample =
    "First\n\n== Getting started\n\n====  On Linux, at 9.30 \nRun it\n\n=== Getting started\n----\n== no title\n----\n== Getting started\n".toList := by decide +kernel

theorem heading_of {h : Heading} (h1 : (decide (1 ≤ h.level) && decide (h.level ≤ 5) && !h.gap.isEmpty && h.gap.all Grammar.isBlank && h.trail.all (fun c => c == ' ') &&
      h.title.all (fun c => !Grammar.isEol c) && !h.title.isEmpty && h.title.head?.all (fun c => !C48.isSpace c) && h.title.getLast?.all (fun c => !C48.isSpace c)) = true)
    (h2 : ∀ m ∈ marks, ¬ m.toList <:+: h.title ++ h.trail) : h.Ok := by
  simp only [Bool.and_eq_true] at h1
  obtain ⟨⟨⟨⟨⟨⟨⟨⟨a, b⟩, c⟩, d⟩, e⟩, f⟩, g⟩, i⟩, j⟩ := h1
  refine ⟨of_decide_eq_true a, of_decide_eq_true b, by simpa using c, List.all_eq_true.mp d, fun x hx => by simpa using List.all_eq_true.mp e x hx,
    fun x hx => by simpa using List.all_eq_true.mp f x hx, by simpa using g, fun x hx => ?_, fun x hx => ?_, h2⟩
  · rw [hx] at i; simpa using i
  · rw [hx] at j; simpa using j

theorem para_of {c : Char} {r : Text} (h : ((c :: r).all (fun c => !Grammar.isEol c) && !C48.isSpace c && (c :: r).getLast?.all (fun c => !Grammar.isBlank c) && C59.alnum sem c &&
      (match r with | d :: _ => !(d == '.' || d == ')') | [] => true)) = true)
    (h4 : ¬ [':', ':'] <:+: c :: r) (h5 : ∀ p ∈ C48.admonitions, ¬ p <+: c :: r) : (Block.para ⟨c :: r, []⟩ []).Ok (C59.alnum sem) := by
  simp only [Bool.and_eq_true] at h
  obtain ⟨⟨⟨⟨h1, h2⟩, h3⟩, h6⟩, h7⟩ := h
  have hf : (Paragraphs.Line.mk (c :: r) []).full = c :: r := List.append_nil _
  refine ⟨⟨fun x hx => by rw [hf] at hx; simpa using List.all_eq_true.mp h1 x hx, ⟨c, List.mem_cons_self, by simpa using h2⟩, (fun _ h => nomatch h),
    fun x hx => by rw [hx] at h3; simpa using h3⟩, ⟨⟨c, r, hf, h6, fun d x _ hd hp => ?_⟩, by rw [hf]; exact h4, by rw [hf]; exact h5⟩, fun _ h => nomatch h⟩
  obtain ⟨z, rfl⟩ := hp
  rcases hd with rfl | rfl <;> exact absurd (show false = true from h7) (by decide)

theorem sample_good : Good (C59.alnum sem) sample := by
  refine ⟨para_of (by decide +kernel) (by decide +kernel) (by decide +kernel), trivial, (fun _ h => nomatch h), trivial,
    heading_of (by decide +kernel) (by decide +kernel), trivial, (fun _ h => nomatch h), trivial,
    heading_of (by decide +kernel) (by decide +kernel), trivial,
    para_of (by decide +kernel) (by decide +kernel) (by decide +kernel), trivial, (fun _ h => nomatch h), trivial,
    heading_of (by decide +kernel) (by decide +kernel), trivial, ⟨by decide, ⟨(fun _ h => nomatch h), fun _ h => nomatch h⟩, (fun _ h => nomatch h), ?_⟩, trivial,
    heading_of (by decide +kernel) (by decide +kernel), trivial, trivial⟩
  intro l hl
  simp only [List.mem_cons, List.not_mem_nil, or_false] at hl
  obtain rfl := hl
  exact ⟨⟨by decide +kernel, (fun _ h => nomatch h), by decide +kernel⟩, C62.open_of (by decide +kernel)⟩

theorem sample_lines : ∀ l ∈ lines sample, C50.Untouched l := by
  have h : (lines sample).all (fun l => l.all (fun c => !Grammar.isEol c) && decide (utf8Len l ≤ 65535) &&
    ["include::", "ifdef::", "ifndef::", "ifeval::[", "endif::"].all (fun k => !k.toList.isPrefixOf l)) = true := by decide +kernel
  exact fun l hl => C50.untouched_of (List.all_eq_true.mp h l hl)

theorem sample_plain : ∀ x ∈ sample, x.Plain := by
  intro x hx
  simp only [sample, List.mem_cons, List.not_mem_nil, or_false] at hx
  rcases hx with rfl | rfl | rfl | rfl | rfl | rfl | rfl | rfl | rfl | rfl <;> first | trivial | (show Block.Plain _; unfold Block.Plain; decide +kernel)

/-- From what is written to what is shown. -/
example (c : Walk.Ctx) (fmt : Val → Text) : Nonempty (Stages C50.rawEnv 0 (rootCtx [] []) sem C62.acts 0 C62.reader C59.world c fmt ⟨[], []⟩ (C51.lib Html.html) C60.plainCfg
    "First\n\n== Getting started\n\n====  On Linux, at 9.30 \nRun it\n\n=== Getting started\n----\n== no title\n----\n== Getting started\n".toList
    ("<div class=\"paragraph\">\n<p>First</p>\n</div>\n".toList ++
     "<div class=\"sect1\">\n<h2 id=\"_getting_started\">Getting started</h2>\n<div class=\"sectionbody\">\n".toList ++
     "<div class=\"sect3\">\n<h4 id=\"_on_linux_at_9_30\">On Linux, at 9.30</h4>\n<div class=\"paragraph\">\n<p>Run it</p>\n</div>\n</div>\n".toList ++
     "<div class=\"sect2\">\n<h3 id=\"_getting_started_2\">Getting started</h3>\n".toList ++
     "<div class=\"listingblock\">\n<div class=\"content\">\n<pre>== no title</pre>\n</div>\n</div>\n</div>\n</div>\n</div>\n".toList ++
     "<div class=\"sect1\">\n<h2 id=\"_getting_started_3\">Getting started</h2>\n<div class=\"sectionbody\">\n</div>\n</div>\n".toList)) := by
  have h := text_to_page C50.rawEnv_reads 0 (ctx := rootCtx [] []) rfl sem_code sem_place sem_list sem_lenCode C62.acts_obey (s := 0) rfl (D := C62.reader) C62.reader_reads
    C59.world_grammatical c fmt (pa := ⟨[], []⟩) rfl rfl (L := C51.lib Html.html) (R := Html.html) rfl
    (C60.plainCfg_article _) rfl sample_good sample_lines sample_plain
  have e2 : page (C51.lib Html.html).lower (C59.alnum sem) (getBoolD C60.plainCfg.attrs "unicode" true) sample =
    ("<div class=\"paragraph\">\n<p>First</p>\n</div>\n".toList ++
     "<div class=\"sect1\">\n<h2 id=\"_getting_started\">Getting started</h2>\n<div class=\"sectionbody\">\n".toList ++
     "<div class=\"sect3\">\n<h4 id=\"_on_linux_at_9_30\">On Linux, at 9.30</h4>\n<div class=\"paragraph\">\n<p>Run it</p>\n</div>\n</div>\n".toList ++
     "<div class=\"sect2\">\n<h3 id=\"_getting_started_2\">Getting started</h3>\n".toList ++
     "<div class=\"listingblock\">\n<div class=\"content\">\n<pre>== no title</pre>\n</div>\n</div>\n</div>\n</div>\n</div>\n".toList ++
     "<div class=\"sect1\">\n<h2 id=\"_getting_started_3\">Getting started</h2>\n<div class=\"sectionbody\">\n</div>\n</div>\n".toList) := by decide +kernel
  rw [sample_source, e2] at h
  exact h

end C63
end Verif
