import Verif.Props.BlockRender
import Verif.Proofs.KernelRfl

/-!
# C62 — Documents with delimited blocks, from the text to the page
-/
namespace Verif
namespace C62
open Composed
open Walk (Any Kind)
open Rend
open Paragraphs (Line)

section
variable {L : Lib} {u : Bool} {alnum : Char → Bool}

theorem para_template {R : Html.Rules} (hL : L.tmpl = Html.templatesOf R) : L.tmpl.paragraph = Tmpl.Html5.paragraphTmpl := by
  rw [hL]
  obtain ⟨x, o⟩ := R
  cases x <;> rfl

theorem tidy_newline {l : Line} (h : Tidy l) : '\n' ∉ l.text := fun hn => by
  have := h.one '\n' (List.mem_append_left _ hn)
  revert this
  decide

theorem para_shows {R : Html.Rules} (hL : L.tmpl = Html.templatesOf R) (n : Nat) {l : Line} {ls : List Line} (h : (Block.para l ls).Ok alnum) :
    Writes' (renderElement L (n + 2) (el (final (.para l ls)))) u ((Block.para l ls).html u) := by
  intro c hc
  have hok : ∀ x ∈ l :: ls, x.Ok := by
    intro x hx
    rcases List.mem_cons.mp hx with rfl | hx
    · exact h.1
    · exact (h.2.2 x hx).1
  obtain ⟨h1, h2⟩ := C60.text_ends hok
  have := C60.paragraph_shows (n := n) (para_template hL) hc.unicode hc.hardbreaks hc.within hc.withinList h1 h2
  refine ⟨c.counters, ?_⟩
  have e : el (final (.para l ls)) = C60.toEl (.paragraph [] (PlainText.pieces true (Prose.text (l :: ls)))) := by
    show El.paragraph [] (els (PlainText.pieces true (Prose.text (l :: ls)))) = _
    rw [els_pieces]
    rfl
  rw [e]
  exact this

theorem writes_cons {n : Nat} {e : El} {es : List El} {t t' : Text} (h1 : Writes' (renderElement L n e) u t) (h2 : Writes' (renderAll (renderElement L n) es) u t') :
    Writes' (renderAll (renderElement L n) (e :: es)) u (t ++ t') := by
  intro c hc
  obtain ⟨k1, h1⟩ := h1 c hc
  obtain ⟨k2, h2⟩ := h2 _ (fine_counters hc k1)
  exact ⟨k2, (bind_ok h1).trans ((bind_ok h2).trans rfl)⟩

mutual
theorem block_shows {R : Html.Rules} (hL : L.tmpl = Html.templatesOf R) : ∀ {b : Block}, b.Ok alnum → (∀ w, b ≠ .blank w) → ∃ N, ∀ n, N ≤ n →
    Writes' (renderElement L n (el (final b))) u (b.html u)
  | .para l ls, h, _ => ⟨2, fun n hn => by
      obtain ⟨m, rfl⟩ := Nat.exists_eq_add_of_le' hn
      exact para_shows hL m h⟩
  | .blank w, _, h => absurd rfl (h w)
  | .verb k f ls, h, _ => ⟨2, fun n hn => by
      obtain ⟨m, rfl⟩ := Nat.exists_eq_add_of_le' hn
      exact verbatim_shows hL m k (fun l hl => tidy_newline (h.2.2.2 l hl).1)⟩
  | .comp k f bs, h, _ => by
    obtain ⟨N, hN⟩ := blocks_show hL h.2.2.1
    refine ⟨N + 1, fun n hn => ?_⟩
    obtain ⟨m, rfl⟩ := Nat.exists_eq_add_of_le' (Nat.le_trans (Nat.le_add_left 1 N) hn)
    exact compound_shows hL m k (hN m (by omega))
theorem blocks_show {R : Html.Rules} (hL : L.tmpl = Html.templatesOf R) : ∀ {bs : List Block}, Good alnum bs → ∃ N, ∀ n, N ≤ n →
    Writes' (renderAll (renderElement L n) (els (finalAll bs))) u (page u bs)
  | [], _ => ⟨0, fun _ _ c _ => ⟨c.counters, rfl⟩⟩
  | .blank w :: bs, h => blocks_show hL (bs := bs) h.2.2
  | .para l ls :: bs, h => by
    obtain ⟨N1, h1⟩ := block_shows hL h.1 (fun _ h => nomatch h)
    obtain ⟨N2, h2⟩ := blocks_show hL (bs := bs) h.2.2
    exact ⟨max N1 N2, fun n hn => writes_cons (h1 n (by omega)) (h2 n (by omega))⟩
  | .verb k f ls :: bs, h => by
    obtain ⟨N1, h1⟩ := block_shows hL h.1 (fun _ h => nomatch h)
    obtain ⟨N2, h2⟩ := blocks_show hL (bs := bs) h.2.2
    exact ⟨max N1 N2, fun n hn => writes_cons (h1 n (by omega)) (h2 n (by omega))⟩
  | .comp k f bs' :: bs, h => by
    obtain ⟨N1, h1⟩ := block_shows hL h.1 (fun _ h => nomatch h)
    obtain ⟨N2, h2⟩ := blocks_show hL (bs := bs) h.2.2
    exact ⟨max N1 N2, fun n hn => writes_cons (h1 n (by omega)) (h2 n (by omega))⟩
end

/-- Paragraphs and blocks. -/
def Body (es : List El) : Prop := ∀ e ∈ es, (∃ a xs, e = .paragraph a xs) ∨ ∃ k a xs, e = .block k a xs

theorem header_body {es : List El} (h : Body es) : header es = none := by
  cases es with
  | nil => rfl
  | cons e es => rcases h e List.mem_cons_self with ⟨a, xs, rfl⟩ | ⟨k, a, xs, rfl⟩ <;> rfl

theorem decls_body {es : List El} (h : Body es) (a : Attrs) : leadingDecls es a = a := by
  cases es with
  | nil => rfl
  | cons e es => rcases h e List.mem_cons_self with ⟨a, xs, rfl⟩ | ⟨k, a, xs, rfl⟩ <;> rfl

theorem body_body : ∀ {es : List El}, Body es → bodyElements es = es
  | [], _ => rfl
  | e :: es, h => by
    have ih := body_body (es := es) (fun x hx => h x (List.mem_cons_of_mem _ hx))
    rcases h e List.mem_cons_self with ⟨a, xs, rfl⟩ | ⟨k, a, xs, rfl⟩ <;> exact congrArg (_ :: ·) ih

/-- The page of a document without sections, given what is made of its elements. -/
theorem page_of {cfg : Config} (hA : C60.Article L cfg) {es : List El} (hb : Body es) {n : Nat} {t : Text}
    (h : Writes' (renderAll (renderElement L n) es) (getBoolD cfg.attrs "unicode" true) t) : render L n ⟨es, [], [], none⟩ cfg = .ok t := by
  have hu : getBoolD (defaultAttrs cfg) "unicode" true = getBoolD cfg.attrs "unicode" true := by
    unfold getBoolD
    rw [C60.get_default cfg (by decide)]
  have hh : hasOption (defaultAttrs cfg) "hardbreaks" = false := by
    have := hA.hardbreaks
    unfold hasOption Rend.has at this ⊢
    rw [C60.get_default cfg (by decide), C60.get_default cfg (by decide)]
    exact this
  have hd : getStrD L.sprint (defaultAttrs cfg) "doctype" "article".toList ≠ "manpage".toList := by
    have := hA.doctype
    unfold getStrD at this ⊢
    rw [C60.get_default cfg (by decide)]
    exact this
  have hhead : header (Doc.mk es [] [] none).elements = none := header_body hb
  let c : Rend.Ctx := ⟨defaultAttrs cfg, false, 0, [], [], false, sectionNumbers es, []⟩
  have hstart : startContext ⟨es, [], [], none⟩ ⟨defaultAttrs cfg, false, 0, [], [], false, [], []⟩ = c := by
    unfold startContext
    rw [hhead]
    show ({ attrs := leadingDecls es (defaultAttrs cfg), .. } : Rend.Ctx) = _
    rw [decls_body hb]
  have hctx : newContext ⟨es, [], [], none⟩ cfg = .ok ⟨defaultAttrs cfg, false, 0, [], [], false, [], []⟩ := by
    unfold newContext
    rw [hhead]
    rfl
  obtain ⟨k, hk⟩ := h c ⟨hu, hh, rfl, rfl⟩
  have hbody : documentBody L (renderElement L n) es none [] c = .ok (t, { c with counters := k }) := by
    unfold documentBody
    show M.bind (M.lift (placeToc _ none _)) _ c = _
    unfold M.bind
    rw [C60.place_none]
    refine (bind_ok hk).trans ?_
    show Except.ok (t ++ [], _) = _
    rw [List.append_nil]
  have hsplit : ∀ pl, splitAndRender L (renderElement L n) pl cfg.wrap ⟨es, [], [], none⟩ c = .ok (([], t), { c with counters := k }) := by
    intro pl
    unfold splitAndRender
    show (if getStrD L.sprint (defaultAttrs cfg) "doctype" "article".toList = "manpage".toList then (_ : M (Text × Text)) else _) c = _
    rw [if_neg hd]
    show M.bind (documentHeader L _ (header es)) _ c = _
    unfold M.bind
    rw [header_body hb]
    show M.bind (documentBody L _ (bodyElements es) none []) _ c = _
    rw [body_body hb]
    exact (bind_ok hbody).trans rfl
  unfold render
  dsimp only
  rw [hctx]
  dsimp only
  rw [header_body hb, hstart]
  show (match renderParts L _ _ cfg.wrap ⟨es, [], [], none⟩ c with
    | .error e => Except.error e
    | .ok (parts, c) => renderPage L ⟨es, [], [], none⟩ cfg _ parts c) = _
  have hparts : ∀ pl, renderParts L (renderElement L n) pl cfg.wrap ⟨es, [], [], none⟩ c = .ok (([], t, []), { c with counters := k }) := by
    intro pl
    unfold renderParts
    refine (bind_ok (hsplit pl)).trans ?_
    show M.bind (documentRoles _ (header es)) _ _ = _
    rw [header_body hb]
    rfl
  rw [hparts]
  dsimp only
  unfold renderPage
  rw [hA.body]
  rfl

theorem final_body : ∀ bs : List Block, Body (els (finalAll bs))
  | [] => fun _ h => nomatch h
  | .blank w :: bs => final_body bs
  | .para l ls :: bs => by
    intro e he
    rcases List.mem_cons.mp (show e ∈ el (final (.para l ls)) :: els (finalAll bs) from he) with rfl | he
    · exact .inl ⟨_, _, rfl⟩
    · exact final_body bs e he
  | .verb k f ls :: bs => by
    intro e he
    rcases List.mem_cons.mp (show e ∈ el (final (.verb k f ls)) :: els (finalAll bs) from he) with rfl | he
    · exact .inr ⟨_, _, _, rfl⟩
    · exact final_body bs e he
  | .comp k f bs' :: bs => by
    intro e he
    rcases List.mem_cons.mp (show e ∈ el (final (.comp k f bs')) :: els (finalAll bs) from he) with rfl | he
    · exact .inr ⟨_, _, _, rfl⟩
    · exact final_body bs e he

/-- The page of a document with delimited blocks. -/
theorem rendered {R : Html.Rules} (hL : L.tmpl = Html.templatesOf R) {cfg : Config} (hA : C60.Article L cfg) {bs : List Block} (hg : Good alnum bs) :
    ∃ N, ∀ n, N ≤ n → render L n ⟨els (finalAll bs), [], [], none⟩ cfg = .ok (page (getBoolD cfg.attrs "unicode" true) bs) := by
  obtain ⟨N, hN⟩ := blocks_show (u := getBoolD cfg.attrs "unicode" true) hL hg
  exact ⟨N, fun n hn => page_of hA (final_body bs) (hN n hn)⟩

end

/-! ### The stages between the substitutions and the renderer

Their models look at elements in different ways; `num` names what they do not look at. -/

section
variable (num : Any → Nat)

mutual
/-- An element for the collection of footnotes. -/
def footOf : Any → Foot.FNode
  | .paragraph _ es => .para (feet es)
  | .block _ _ es => .block (feet es)
  | .group n _ es => if n = 0 then .items (feet es) else .item (feet es)
  | e => .leaf (num e)
def feet : List Any → List Foot.FNode
  | [] => []
  | e :: es => footOf e :: feet es
end

/-- The bullet with a number. -/
def bulletAt : Nat → Lists.Bullet
  | 0 => .dash
  | 1 => .one
  | 2 => .two
  | 3 => .three
  | 4 => .four
  | _ => .five

/-- The style of an item with the label `n`. -/
def styleAt (n : Nat) : Lists.Style := if n < 6 then .ordered (numberingAt n) else .unordered (bulletAt (n - 6))

/-- An item of a list, before lists are arranged. -/
def entryOf : Any → Lists.LEl
  | .group n _ es => .item (styleAt n) (num (.group n [] es))
  | e => .other (num e)

mutual
/-- An element for the arrangement of lists: the items of all lists that follow each other are a group with the label 0. -/
def listOf : Any → Lists.BEl
  | .block k a es => .block (num (.block k a [])) (listsOf es)
  | .group n a es => if n = 0 then .lists (es.map (entryOf num)) else .leaf (num (.group n a es))
  | e => .leaf (num e)
def listsOf : List Any → List Lists.BEl
  | [] => []
  | e :: es => listOf e :: listsOf es
end

/-- Not a list. -/
def unlisted : Any → Bool
  | .group n _ _ => decide (n < 100)
  | _ => true

mutual
/-- A list or an item, followed by other ones. What an item contains other than lists is named by a number. -/
def nodeOf : Any → Forest Lists.LNode → Forest Lists.LNode
  | .group n _ es, rest =>
    .cons (if n < 100 then .item (styleAt n) (num (.group n [] (es.filter unlisted))) else .list (styleAt (n - 100))) (nodesOf es) rest
  | _, rest => rest
/-- Lists, or the items of a list. -/
def nodesOf : List Any → Forest Lists.LNode
  | [] => .nil
  | e :: es => nodeOf e (nodesOf es)
end

mutual
/-- The same, after lists are arranged. -/
def arrangedOf : Any → Lists.AEl
  | .block k a es => .block (num (.block k a [])) (arrangedsOf es)
  | .group n a es => if n < 100 then .leaf (num (.group n a es)) else .list (nodeOf num (.group n a es) .nil)
  | e => .leaf (num e)
def arrangedsOf : List Any → List Lists.AEl
  | [] => []
  | e :: es => arrangedOf e :: arrangedsOf es
end

mutual
/-- An element for the filter. -/
def filterOf : Any → Filter.FEl
  | .paragraph a es => .parent (num (.paragraph a [])) (filtersOf es)
  | .block k a es => .block (decide (k = .comment)) (num (.block k a [])) (filtersOf es)
  | .group n a es => if n < 100 then .parent (num (.group n a [])) (filtersOf es) else .list (num (.group n a [])) (filtersOf es)
  | .leaf _ => .blank
  | e => .leaf (num e)
def filtersOf : List Any → List Filter.FEl
  | [] => []
  | e :: es => filterOf e :: filtersOf es
end

theorem feet_leaves : ∀ {es : List Any}, (∀ e ∈ es, C59.Textual e) → ∀ n, Foot.subInline n (feet num es) = (n, feet num es)
  | [], _, _ => rfl
  | e :: es, h, n => by
    have ih := feet_leaves (fun x hx => h x (List.mem_cons_of_mem _ hx)) n
    rcases h e List.mem_cons_self with ⟨t, rfl⟩ | ⟨t, rfl⟩ <;>
    · show ((Foot.subInline n (feet num es)).1, _ :: (Foot.subInline n (feet num es)).2) = _
      rw [ih]
      rfl

/-- There are no footnotes. -/
theorem no_footnotes (n : Foot.Notes) : ∀ bs : List Block, Foot.collectAll n (bs.map (fun b => [footOf num (content b)])) =
    (n, bs.map (fun b => [footOf num (content b)]))
  | [] => rfl
  | b :: bs => by
    have h : Foot.substAll n [footOf num (content b)] = (n, [footOf num (content b)]) := by
      cases b with
      | blank w => rfl
      | para l ls =>
        show ((Foot.subInline n (feet num (PlainText.pieces true (Prose.text (l :: ls))))).1, [Foot.FNode.para (Foot.subInline n (feet num _)).2]) = _
        rw [feet_leaves num (C59.pieces_textual _ _)]
        rfl
      | verb k f ls => rfl
      | comp k f bs => rfl
    show ((Foot.collectAll (Foot.substAll n _).1 _).1, (Foot.substAll n _).2 :: (Foot.collectAll (Foot.substAll n _).1 _).2) = _
    rw [h, no_footnotes n bs]
    rfl

theorem lists_cons {e : Any} {es : List Any} (h1 : Lists.arrangeEl (listOf num e) = some (arrangedOf num e)) (h2 : Lists.arrangeEls (listsOf num es) = some (arrangedsOf num es)) :
    Lists.arrangeEls (listsOf num (e :: es)) = some (arrangedsOf num (e :: es)) := by
  show (match Lists.arrangeEl (listOf num e), Lists.arrangeEls (listsOf num es) with
    | some a, some b => some (a :: b)
    | _, _ => none) = _
  rw [h1, h2]
  rfl

theorem textual_lists : ∀ {es : List Any}, (∀ e ∈ es, C59.Textual e) → Lists.arrangeEls (listsOf num es) = some (arrangedsOf num es)
  | [], _ => rfl
  | e :: es, h => by
    have ih := textual_lists (fun x hx => h x (List.mem_cons_of_mem _ hx))
    have h1 : Lists.arrangeEl (listOf num e) = some (arrangedOf num e) := by
      rcases h e List.mem_cons_self with ⟨t, rfl⟩ | ⟨t, rfl⟩ <;> rfl
    exact lists_cons num h1 ih

mutual
/-- There are no lists. -/
theorem no_list : ∀ b : Block, Lists.arrangeEl (listOf num (content b)) = some (arrangedOf num (content b))
  | .para l ls => rfl
  | .blank w => rfl
  | .verb k f ls => by
    show (Lists.arrangeEls (listsOf num (PlainText.pieces (decide (k ≠ .pass)) (Prose.text ls)))).map _ = _
    rw [textual_lists num (C59.pieces_textual _ _)]
    rfl
  | .comp k f bs => by
    show (Lists.arrangeEls (listsOf num (contentAll bs))).map _ = _
    rw [no_lists bs]
    rfl
theorem no_lists : ∀ bs : List Block, Lists.arrangeEls (listsOf num (contentAll bs)) = some (arrangedsOf num (contentAll bs))
  | [] => rfl
  | [.blank _] => rfl
  | [.para l ls] => lists_cons num (no_list (.para l ls)) rfl
  | [.verb k f ls] => lists_cons num (no_list (.verb k f ls)) rfl
  | [.comp k f bs] => lists_cons num (no_list (.comp k f bs)) rfl
  | .blank w :: b' :: bs => lists_cons num (no_list (.blank w)) (no_lists (b' :: bs))
  | .para l ls :: b' :: bs => lists_cons num (no_list (.para l ls)) (no_lists (b' :: bs))
  | .verb k f ls :: b' :: bs => lists_cons num (no_list (.verb k f ls)) (no_lists (b' :: bs))
  | .comp k f bs' :: b' :: bs => lists_cons num (no_list (.comp k f bs')) (no_lists (b' :: bs))
end

theorem no_list_one (b : Block) : Lists.arrangeEls [listOf num (content b)] = some [arrangedOf num (content b)] := lists_cons num (es := []) (no_list num b) rfl

theorem filter_leaves : ∀ {es : List Any}, (∀ e ∈ es, C59.Textual e) → Filter.filterOut (filtersOf num es) = filtersOf num es
  | [], _ => by rfl
  | e :: es, h => by
    have ih := filter_leaves (fun x hx => h x (List.mem_cons_of_mem _ hx))
    rcases h e List.mem_cons_self with ⟨t, rfl⟩ | ⟨t, rfl⟩ <;>
    · simp only [filtersOf, filterOf, Filter.filterOut, Filter.isNoise, Filter.inside, Filter.isEmptyHeader, ih]
      rfl

theorem filter_cons {e e' : Filter.FEl} {es es' : List Filter.FEl} (h1 : Filter.filterOut [e] = [e']) (h2 : Filter.filterOut es = es') :
    Filter.filterOut (e :: es) = e' :: es' := by
  rw [Filter.filterOut] at h1 ⊢
  split
  · next h => rw [if_pos h] at h1; rw [Filter.filterOut] at h1; cases h1
  · next h =>
    rw [if_neg h] at h1
    split
    · next h' => rw [if_pos h'] at h1; rw [Filter.filterOut] at h1; cases h1
    · next h' =>
      rw [if_neg h', Filter.filterOut] at h1
      injection h1 with h1
      rw [h1, h2]

theorem filter_blank (es : List Filter.FEl) : Filter.filterOut (.blank :: es) = Filter.filterOut es := by
  rw [Filter.filterOut]
  exact if_pos rfl

theorem not_comment (k : Verbatim) : decide (verbKind k = .comment) = false := by cases k <;> rfl
theorem not_comment' (k : Compound) : decide (compKind k = .comment) = false := by cases k <;> rfl

mutual
theorem filter_block : ∀ b : Block, (∀ w, b ≠ .blank w) → Filter.filterOut [filterOf num (content b)] = [filterOf num (final b)]
  | .blank w, h => absurd rfl (h w)
  | .para l ls, _ => by
    have ih := filter_leaves num (C59.pieces_textual true (Prose.text (l :: ls)))
    show Filter.filterOut [.parent _ (filtersOf num (PlainText.pieces true (Prose.text (l :: ls))))] = _
    simp only [Filter.filterOut, Filter.isNoise, Filter.inside, Filter.isEmptyHeader, ih]
    rfl
  | .verb k f ls, _ => by
    have ih := filter_leaves num (C59.pieces_textual (decide (k ≠ .pass)) (Prose.text ls))
    show Filter.filterOut [.block (decide (verbKind k = .comment)) _ (filtersOf num (PlainText.pieces (decide (k ≠ .pass)) (Prose.text ls)))] =
      [.block (decide (verbKind k = .comment)) _ (filtersOf num (PlainText.pieces (decide (k ≠ .pass)) (Prose.text ls)))]
    rw [not_comment]
    simp only [Filter.filterOut, Filter.isNoise, Filter.inside, Filter.isEmptyHeader, ih]
    rfl
  | .comp k f bs, _ => by
    have ih := filter_blocks bs
    show Filter.filterOut [.block (decide (compKind k = .comment)) _ (filtersOf num (contentAll bs))] =
      [.block (decide (compKind k = .comment)) _ (filtersOf num (finalAll bs))]
    rw [not_comment']
    simp only [Filter.filterOut, Filter.isNoise, Filter.inside, Filter.isEmptyHeader, ih]
    rfl
/-- Blank lines are dropped, paragraphs and blocks are kept. -/
theorem filter_blocks : ∀ bs : List Block, Filter.filterOut (filtersOf num (contentAll bs)) = filtersOf num (finalAll bs)
  | [] => by rfl
  | [.blank _] => by rfl
  | [.para l ls] => filter_block (.para l ls) (fun _ h => nomatch h)
  | [.verb k f ls] => filter_block (.verb k f ls) (fun _ h => nomatch h)
  | [.comp k f bs] => filter_block (.comp k f bs) (fun _ h => nomatch h)
  | .blank w :: b' :: bs => by
    have ih := filter_blocks (b' :: bs)
    show Filter.filterOut (.blank :: filtersOf num (contentAll (b' :: bs))) = _
    rw [filter_blank, ih]
    rfl
  | .para l ls :: b' :: bs => filter_cons (filter_block (.para l ls) (fun _ h => nomatch h)) (filter_blocks (b' :: bs))
  | .verb k f ls :: b' :: bs => filter_cons (filter_block (.verb k f ls) (fun _ h => nomatch h)) (filter_blocks (b' :: bs))
  | .comp k f bs' :: b' :: bs => filter_cons (filter_block (.comp k f bs') (fun _ h => nomatch h)) (filter_blocks (b' :: bs))
end

theorem filter_document (bs : List Block) : bs.flatMap (fun b => Filter.filterOut [filterOf num (content b)]) = (finalAll bs).map (filterOf num) := by
  induction bs with
  | nil => rfl
  | cons b bs ih =>
    rw [List.flatMap_cons, ih]
    cases b with
    | blank w =>
      show Filter.filterOut [.blank] ++ _ = (finalAll bs).map _
      rw [filter_blank, Filter.filterOut, List.nil_append]
    | para l ls => rw [filter_block num (.para l ls) (fun _ h => nomatch h)]; rfl
    | verb k f ls => rw [filter_block num (.verb k f ls) (fun _ h => nomatch h)]; rfl
    | comp k f bs' => rw [filter_block num (.comp k f bs') (fun _ h => nomatch h)]; rfl

end

/-! ### From the text to the page -/

/-- The stages of a conversion (libasciidoc.go:50-98, document_processing.go:16-46): the text `src` is preprocessed; the result is cut into blocks, each one a
fragment; the blocks are refined; substitutions are applied; footnotes are collected; lists are arranged; blank lines are filtered out; what
remains is aggregated, and rendered. `num` names elements for the stages whose models do not look at them. -/
structure Stages {σ : Type} (env : Env) (files : Nat) (ctx : Verif.Ctx) (S : Peg.Sem σ) (A : Peg.Code σ) (s : σ) (D : Refine.Reader) (W : Walk.World)
    (c : Walk.Ctx) (L : Lib) (cfg : Config) (src : Text) (html : Text) where
  text : Text
  blocks : List Any
  refined : List Any
  contents : List Any
  kept : List Any
  preprocessed : preprocess env (files + 1) ctx src = .ok (text, ctx.offsets)
  parsed : ∃ depth rounds, FragmentLoop.loopV S A (fun _ => false) depth rounds s text = some ⟨blocks.map (fun b => [b]), .endOfDocument, []⟩
  same : refined.length = blocks.length
  found : ∀ p ∈ blocks.zip refined, ∃ N, ∀ n, N ≤ n → Refine.refineFragment D n (.elements [p.1]) = .done (.elements [p.2])
  same' : contents.length = refined.length
  substituted : ∀ p ∈ refined.zip contents, Walk.substFragment W c (.elements [p.1]) = .ok (.elements [p.2], c)
  footnotes : ∀ num notes, Foot.collectAll notes (contents.map (fun e => [footOf num e])) = (notes, contents.map (fun e => [footOf num e]))
  lists : ∀ num, ∀ e ∈ contents, Lists.arrangeEls [listOf num e] = some [arrangedOf num e]
  filtered : ∀ num, contents.flatMap (fun e => Filter.filterOut [filterOf num e]) = kept.map (filterOf num)
  aggregated : ∀ (num : Any → Nat), aggregateTree (kept.map (fun e => .block (num e) [])) = C60.siblings (kept.map (fun e => .block (num e) []))
  preamble : ∀ (num : Any → Nat), insertPreamble (kept.map (fun e => .block (num e) [])) = (kept.map (fun e => .block (num e) [])).map .elem
  rendered : ∃ N, ∀ n, N ≤ n → render L n ⟨kept.map el, [], [], none⟩ cfg = .ok html

theorem page_trimmed (u : Bool) (bs : List Block) : page u (trimmed bs) = page u bs := by
  have happ : ∀ as bs : List Block, page u (as ++ bs) = page u as ++ page u bs := by
    intro as bs
    induction as with
    | nil => rfl
    | cons a as ih =>
      show a.html u ++ page u (as ++ bs) = (a.html u ++ page u as) ++ page u bs
      rw [ih, List.append_assoc]
  unfold trimmed
  split
  · next h =>
    conv => rhs; rw [← List.dropLast_append_getLast? _ h]
    rw [happ]
    show _ = _ ++ []
    rw [List.append_nil]
  · rfl

theorem good_mem {alnum : Char → Bool} : ∀ {bs : List Block}, Good alnum bs → ∀ b ∈ bs, b.Ok alnum
  | [], _, _, h => nomatch h
  | _ :: _, h, b, hb => by
    rcases List.mem_cons.mp hb with rfl | hb
    · exact h.1
    · exact good_mem h.2.2 b hb

theorem plains_mem : ∀ {bs : List Block}, Plains bs → ∀ b ∈ bs, b.Plain
  | [], _, _, h => nomatch h
  | _ :: _, h, b, hb => by
    rcases List.mem_cons.mp hb with rfl | hb
    · exact h.1
    · exact plains_mem h.2 b hb

theorem mem_trimmed {bs : List Block} {b : Block} (h : b ∈ trimmed bs) : b ∈ bs := by
  unfold trimmed at h
  split at h
  · exact List.mem_of_mem_dropLast h
  · exact h

/-- **C62**: a document of paragraphs and delimited blocks without markup, from the text to the page: the paragraphs and blocks appear in order, each
block with the blocks in it, listings, literal, fenced and passthrough blocks with their lines as they are written, without the spaces at the ends
of the lines; special characters are escaped everywhere but in passthrough blocks; nothing else appears. -/
theorem text_to_page {σ τ : Type} {env : Env} {S0 : Peg.Sem τ} {elem : τ → Option RawElem} {sects within : τ → Bool} (hE : C50.Reads env S0 elem sects within)
    (files : Nat) {ctx : Verif.Ctx} (hroot : ctx.sectEnabled = false) {S : Peg.Sem σ} {A : Peg.Code σ} {len : σ → Nat} (hS : C59.Code S) (hlen : C49.LenCode S len)
    (hA : Actions.Obeys A) (s : σ) {D : Refine.Reader} (hD : ReadsBlocks D (C59.alnum S)) {W : Walk.World} (hW : C59.Grammatical W) (c : Walk.Ctx)
    {L : Lib} {R : Html.Rules} (hL : L.tmpl = Html.templatesOf R) {cfg : Config} (hcfg : C60.Article L cfg) {bs : List Block} (hg : Good (C59.alnum S) bs)
    (hu : ∀ l ∈ lines bs, C50.Untouched l) (hp : Plains bs) :
    Nonempty (Stages env files ctx S A s D W c L cfg (source bs) (page (getBoolD cfg.attrs "unicode" true) bs)) := by
  refine ⟨⟨joinLF (lines bs), (trimmed bs).map element, (trimmed bs).map refined, (trimmed bs).map content, finalAll (trimmed bs),
    C50.document_unchanged hE files ctx hroot (lines bs) hu, ?_, by simp, ?_, by simp, ?_, ?_, ?_, ?_, fun num => C60.flat num _, fun num => C60.no_preamble num _, ?_⟩⟩
  · rw [List.map_map]
    exact blocks_preprocessed hS hlen hA hg s
  · intro p hm
    rw [List.zip_map', List.mem_map] at hm
    obtain ⟨x, hx, rfl⟩ := hm
    obtain ⟨N, hN⟩ := refine_block hD (good_mem hg x (mem_trimmed hx))
    refine ⟨N, fun n hn => ?_⟩
    show (match Refine.refineAll (Refine.refine D n) [element x] with
      | .done es => Refine.Out.done (Walk.Fragment.elements es)
      | .error => .done .error
      | .more => .more) = _
    rw [Refine.refineAll, hN n hn]
    rfl
  · intro p hm
    rw [List.zip_map', List.mem_map] at hm
    obtain ⟨x, hx, rfl⟩ := hm
    have := single (substituted_block hW c [] (good_mem hg x (mem_trimmed hx)) (plains_mem hp x (mem_trimmed hx)))
    show Walk.substFragment W c (.elements [refined x]) = _
    simp only [Walk.substFragment, this]
  · intro num notes
    rw [List.map_map]
    exact no_footnotes num notes (trimmed bs)
  · intro num e he
    obtain ⟨b, _, rfl⟩ := List.mem_map.mp he
    exact no_list_one num b
  · intro num
    rw [List.flatMap_map]
    exact filter_document num (trimmed bs)
  · obtain ⟨N, hN⟩ := rendered hL hcfg (trimmed_good hg)
    refine ⟨N, fun n hn => ?_⟩
    rw [← page_trimmed, ← els_eq]
    exact hN n hn

/-! ### The hypotheses can be met -/

/-- The code of the grammar that is used: the state is the length of the delimiter. -/
def sem : Peg.Sem Nat where
  letter := C59.sem.letter
  number := C59.sem.number
  pred id s st t :=
    match C49.setters.find? (·.1 == id) with
    | some x => (true, C49.leading x.2 (st.take (st.length - t.length)))
    | none => match C49.matchers.find? (·.1 == id) with
      | some x => (s == C49.leading x.2 (st.take (st.length - t.length)), s)
      | none => ((C59.sem.pred id () st t).1, s)
  state _ s _ _ := s
  act _ s _ _ := s
  restore _ b := b

theorem sem_lenCode : C49.LenCode sem id where
  set x hx s p t := by
    simp only [C49.setters, List.mem_cons, List.not_mem_nil, or_false] at hx
    rcases hx with rfl | rfl | rfl | rfl | rfl | rfl | rfl <;> simp [sem, C49.setters]
  same x hx s p t := by
    simp only [C49.matchers, List.mem_cons, List.not_mem_nil, or_false] at hx
    rcases hx with rfl | rfl | rfl | rfl | rfl | rfl | rfl <;> simp [sem, C49.setters, C49.matchers]
  pred_len id s st t hid := by
    have : C49.setters.find? (·.1 == id) = none := by
      rw [List.find?_eq_none]
      intro x hx h
      exact hid (List.mem_map.mpr ⟨x, hx, by simpa using h⟩)
    unfold sem
    dsimp only
    rw [this]
    dsimp only
    split <;> rfl
  state_len _ _ _ _ := rfl
  act_len _ _ _ _ := rfl
  restore_len _ _ := rfl

theorem sem_other {id : Nat} (h1 : C49.setters.find? (·.1 == id) = none) (h2 : C49.matchers.find? (·.1 == id) = none) (s : Nat) (st t : Text) :
    sem.pred id s st t = ((C59.sem.pred id () st t).1, s) := by
  unfold sem
  dsimp only
  rw [h1]
  dsimp only
  rw [h2]

theorem sem_code : C59.Code sem where
  fragment s st t := by
    rw [sem_other (by decide) (by decide)]
    exact C59.sem_code.fragment () st t
  visible s p t := by
    rw [sem_other (by decide) (by decide)]
    exact C59.sem_code.visible () p t
  others id hid s st t h := by
    have hf : C49.setters.find? (·.1 == id) = none ∧ C49.matchers.find? (·.1 == id) = none := by
      simp only [List.mem_cons, List.not_mem_nil, or_false] at hid
      rcases hid with rfl | rfl | rfl <;> exact ⟨by decide, by decide⟩
    rw [sem_other hf.1 hf.2] at h
    exact C59.sem_code.others id hid () st t h
  label s l z r hz h1 h2 h3 := by
    rw [sem_other (by decide) (by decide)]
    exact C59.sem_code.label () l z r hz h1 h2 h3
  ascii := C59.sem_code.ascii

def acts : Peg.Code Nat := fun id _ v t => (Actions.code id v t).getD .nil

theorem acts_obey : Actions.Obeys acts := fun id s v t x h => by show (Actions.code id v t).getD .nil = x; rw [h]; rfl

/-- The content of blocks is parsed with the grammar and the actions that are modelled. -/
noncomputable def reader : Refine.Reader where
  parse t := by
    classical
    exact if h : ∃ v, ∃ n s' u, Peg.runV Grammar.grammar sem acts n (.rule Grammar.R.DelimitedBlockElements) t 0 t = some (.ok s' [v] u)
      then some h.choose else none
  lists _ := false
  asciidoc _ := false

theorem reader_reads : ReadsBlocks reader (C59.alnum sem) := by
  refine ⟨by decide, fun t => ⟨Nat, sem, acts, 0, id, sem_code, sem_lenCode, acts_obey, rfl, fun n s' v u h => ?_⟩⟩
  have hx : ∃ v, ∃ n s' u, Peg.runV Grammar.grammar sem acts n (.rule Grammar.R.DelimitedBlockElements) t 0 t = some (.ok s' [v] u) :=
    ⟨v, n, s', u, h⟩
  refine (dif_pos hx).trans ?_
  obtain ⟨n2, s2, u2, h2⟩ := hx.choose_spec
  have := Peg.runV_one h h2
  injection this with _ h3 _
  injection h3 with h3 _
  rw [← h3]

/-- A paragraph; an example that contains a paragraph, a listing and a quote, itself with an open block in it; a fenced block; raw HTML. -/
def sample : List Block :=
  [.para ⟨"See 1 < 2 here".toList, " ".toList⟩ [⟨"and there".toList, []⟩],
   .comp .example_ ⟨4, " ".toList, []⟩
     [.para ⟨"It is so".toList, []⟩ [],
      .verb .listing ⟨5, [], []⟩ [⟨[], []⟩, ⟨"----".toList, []⟩, ⟨"if a < b {".toList, "\t".toList⟩, ⟨"====x".toList, []⟩, ⟨[], " ".toList⟩],
      .blank [],
      .comp .quote ⟨4, [], []⟩ [.comp .open_ ⟨2, [], []⟩ [.para ⟨"deep".toList, []⟩ []], .blank [], .para ⟨"less deep".toList, []⟩ []]],
   .blank [],
   .verb .fenced ⟨3, [], []⟩ [⟨"x & y".toList, []⟩],
   .verb .pass ⟨4, [], []⟩ [⟨"<b>*raw*</b>".toList, []⟩],
   .comp .sidebar ⟨4, [], []⟩ []]

/-- What is written. -/
theorem sample_source : source sample =
    ("See 1 < 2 here \nand there\n==== \nIt is so\n-----\n\n----\nif a < b {\t\n====x\n \n-----\n\n____\n--\ndeep\n--\n\nless deep\n____\n====\n\n".toList ++
     "```\nx & y\n```\n++++\n<b>*raw*</b>\n++++\n****\n****\n".toList) := by decide +kernel

theorem open_of {n : Nat} {l : Text} {c : Char} (h : (l.take n == List.replicate n c && (l.drop n).all Grammar.isBlank) = false) : ¬ Closes c n l := by
  rintro ⟨w, hw, rfl⟩
  have h1 : (fence c n w).take n = List.replicate n c := List.take_left' List.length_replicate
  have h2 : (fence c n w).drop n = w := List.drop_left' List.length_replicate
  rw [h1, h2, show w.all Grammar.isBlank = true from List.all_eq_true.mpr hw] at h
  simp at h

theorem sample_good : Good (C59.alnum sem) sample := by
  have ok : ∀ l : Line, (l.full.all (fun c => !Grammar.isEol c) && l.text.any (fun c => !C48.isSpace c) && l.trail.all Grammar.isBlank &&
      (l.text.getLast?.all (fun c => !Grammar.isBlank c))) = true → l.Ok := by
    intro l h
    simp only [Bool.and_eq_true] at h
    obtain ⟨⟨⟨h1, h2⟩, h3⟩, h4⟩ := h
    refine ⟨fun c hc => by simpa using List.all_eq_true.mp h1 c hc, ?_, fun c hc => List.all_eq_true.mp h3 c hc, fun c hc => ?_⟩
    · obtain ⟨c, hc, h⟩ := List.any_eq_true.mp h2
      exact ⟨c, hc, by simpa using h⟩
    · rw [hc] at h4; simpa using h4
  have ti : ∀ l : Line, (l.full.all (fun c => !Grammar.isEol c) && l.trail.all Grammar.isBlank &&
      (l.text.getLast?.all (fun c => !Grammar.isBlank c))) = true → Tidy l := by
    intro l h
    simp only [Bool.and_eq_true] at h
    obtain ⟨⟨h1, h3⟩, h4⟩ := h
    refine ⟨fun c hc => by simpa using List.all_eq_true.mp h1 c hc, fun c hc => List.all_eq_true.mp h3 c hc, fun c hc => ?_⟩
    rw [hc] at h4; simpa using h4
  have op : ∀ (l : Line) (c : Char) (r : Text), l.full = c :: r → C59.alnum sem c = true →
      (match r with | d :: _ => !(d == '.' || d == ')') | [] => true) = true →
      (¬ [':', ':'] <:+: l.full) → (∀ p ∈ C48.admonitions, ¬ p <+: l.full) → Paragraphs.Opens (C59.alnum sem) l := by
    intro l c r h1 h2 h3 h4 h5
    refine ⟨⟨c, r, h1, h2, fun d x _ hd hp => ?_⟩, h4, h5⟩
    obtain ⟨z, rfl⟩ := hp
    rcases hd with rfl | rfl <;> exact absurd (show false = true from h3) (by decide)
  have co : ∀ l : Line, (match l.full with | c :: _ => decide (c ∉ Paragraphs.openers) | [] => true) = true → Paragraphs.Continues l := by
    intro l h c r e
    rw [e] at h
    exact of_decide_eq_true h
  have fences : ∀ f : Fences, (f.first.all Grammar.isBlank && f.last.all Grammar.isBlank) = true → f.Ok := by
    intro f h
    rw [Bool.and_eq_true] at h
    exact ⟨List.all_eq_true.mp h.1, List.all_eq_true.mp h.2⟩
  have cl : ∀ (c : Char) (n : Nat) (ls : List Text), ls.all (fun l => !(l.take n == List.replicate n c && (l.drop n).all Grammar.isBlank)) = true →
      ∀ l ∈ ls, ¬ Closes c n l := by
    intro c n ls h l hl
    exact open_of (Bool.not_eq_true' _ ▸ List.all_eq_true.mp h l hl)
  have lone : ∀ (l : Line), l.Ok → Paragraphs.Opens (C59.alnum sem) l → (Block.para l []).Ok (C59.alnum sem) := fun l h1 h2 => ⟨h1, h2, fun _ h => nomatch h⟩
  have vb : ∀ (k : Verbatim) (f : Fences) (ls : List Line), (decide (k.least ≤ f.n) && (f.first.all Grammar.isBlank && f.last.all Grammar.isBlank) &&
      f.first.all (fun c => c != '\t') && ls.all (fun l => (l.full.all (fun c => !Grammar.isEol c) && l.trail.all Grammar.isBlank &&
      (l.text.getLast?.all (fun c => !Grammar.isBlank c))) && !(l.full.take f.n == List.replicate f.n k.mark && (l.full.drop f.n).all Grammar.isBlank))) = true →
      (Block.verb k f ls).Ok (C59.alnum sem) := by
    intro k f ls h
    rw [Bool.and_eq_true, Bool.and_eq_true, Bool.and_eq_true] at h
    obtain ⟨⟨⟨h1, h2⟩, h3⟩, h4⟩ := h
    refine ⟨of_decide_eq_true h1, fences f h2, fun _ e => ?_, fun l hl => ?_⟩
    · have := List.all_eq_true.mp h3 '\t' (List.mem_of_mem_head? e)
      exact absurd this (by decide)
    · have := List.all_eq_true.mp h4 l hl
      rw [Bool.and_eq_true] at this
      exact ⟨ti l this.1, open_of (Bool.not_eq_true' _ ▸ this.2)⟩
  refine ⟨⟨ok _ (by decide +kernel), op _ _ _ rfl (by decide) (by decide) (by decide +kernel) (by decide +kernel), ?_⟩, trivial,
    ⟨by unfold Compound.Length; decide, fences _ (by decide), ⟨lone _ (ok _ (by decide +kernel)) (op _ _ _ rfl (by decide) (by decide) (by decide +kernel) (by decide +kernel)), trivial,
      vb _ _ _ (by decide +kernel), trivial, (fun _ h => nomatch h), trivial,
      ⟨by unfold Compound.Length; decide, fences _ (by decide), ⟨⟨by unfold Compound.Length; decide, fences _ (by decide),
          ⟨lone _ (ok _ (by decide +kernel)) (op _ _ _ rfl (by decide) (by decide) (by decide +kernel) (by decide +kernel)), trivial, trivial⟩,
          cl _ _ _ (by decide +kernel)⟩, trivial, (fun _ h => nomatch h), trivial,
          lone _ (ok _ (by decide +kernel)) (op _ _ _ rfl (by decide) (by decide) (by decide +kernel) (by decide +kernel)), trivial, trivial⟩,
        cl _ _ _ (by decide +kernel)⟩, trivial, trivial⟩,
      cl _ _ _ (by decide +kernel)⟩,
    trivial, (fun _ h => nomatch h), trivial, vb _ _ _ (by decide +kernel), trivial, vb _ _ _ (by decide +kernel), trivial,
    ⟨by unfold Compound.Length; decide, fences _ (by decide), trivial, fun _ h => nomatch h⟩, trivial, trivial⟩
  intro x hx
  simp only [List.mem_cons, List.not_mem_nil, or_false] at hx
  rcases hx with rfl
  exact ⟨ok _ (by decide +kernel), co _ (by decide +kernel)⟩

theorem sample_lines : ∀ l ∈ lines sample, C50.Untouched l := by
  have h : (lines sample).all (fun l => l.all (fun c => !Grammar.isEol c) && decide (utf8Len l ≤ 65535) &&
    ["include::", "ifdef::", "ifndef::", "ifeval::[", "endif::"].all (fun k => !k.toList.isPrefixOf l)) = true := by decide +kernel
  exact fun l hl => C50.untouched_of (List.all_eq_true.mp h l hl)

theorem sample_plain : Plains sample := by
  refine ⟨?_, ⟨?_, ?_, trivial, ⟨⟨?_, trivial⟩, trivial, ?_, trivial⟩, trivial⟩, trivial, ?_, ?_, trivial, trivial⟩ <;>
    (unfold Block.Plain; decide +kernel)

/-- From what is written to what is shown. -/
example (c : Walk.Ctx) : Nonempty (Stages C50.rawEnv 0 (rootCtx [] []) sem acts 0 reader C59.world c (C51.lib Html.html) C60.plainCfg
    ("See 1 < 2 here \nand there\n==== \nIt is so\n-----\n\n----\nif a < b {\t\n====x\n \n-----\n\n____\n--\ndeep\n--\n\nless deep\n____\n====\n\n".toList ++
     "```\nx & y\n```\n++++\n<b>*raw*</b>\n++++\n****\n****\n".toList)
    ("<div class=\"paragraph\">\n<p>See 1 &lt; 2 here\nand there</p>\n</div>\n".toList ++
     "<div class=\"exampleblock\">\n<div class=\"content\">\n<div class=\"paragraph\">\n<p>It is so</p>\n</div>\n".toList ++
     "<div class=\"listingblock\">\n<div class=\"content\">\n<pre>----\nif a &lt; b {\n====x</pre>\n</div>\n</div>\n".toList ++
     "<div class=\"quoteblock\">\n<blockquote>\n<div class=\"openblock\">\n<div class=\"content\">\n<div class=\"paragraph\">\n<p>deep</p>\n</div>\n</div>\n</div>\n".toList ++
     "<div class=\"paragraph\">\n<p>less deep</p>\n</div>\n</blockquote>\n</div>\n</div>\n</div>\n".toList ++
     "<div class=\"listingblock\">\n<div class=\"content\">\n<pre class=\"highlight\"><code>x &amp; y</code></pre>\n</div>\n</div>\n".toList ++
     "<b>*raw*</b>\n".toList ++
     "<div class=\"sidebarblock\">\n<div class=\"content\">\n</div>\n</div>\n".toList)) := by
  have h := text_to_page C50.rawEnv_reads 0 (ctx := rootCtx [] []) rfl sem_code sem_lenCode acts_obey 0 reader_reads C59.world_grammatical c (L := C51.lib Html.html) (R := Html.html) rfl
    (C60.plainCfg_article _) sample_good sample_lines sample_plain
  have e2 : page (getBoolD C60.plainCfg.attrs "unicode" true) sample =
    ("<div class=\"paragraph\">\n<p>See 1 &lt; 2 here\nand there</p>\n</div>\n".toList ++
     "<div class=\"exampleblock\">\n<div class=\"content\">\n<div class=\"paragraph\">\n<p>It is so</p>\n</div>\n".toList ++
     "<div class=\"listingblock\">\n<div class=\"content\">\n<pre>----\nif a &lt; b {\n====x</pre>\n</div>\n</div>\n".toList ++
     "<div class=\"quoteblock\">\n<blockquote>\n<div class=\"openblock\">\n<div class=\"content\">\n<div class=\"paragraph\">\n<p>deep</p>\n</div>\n</div>\n</div>\n".toList ++
     "<div class=\"paragraph\">\n<p>less deep</p>\n</div>\n</blockquote>\n</div>\n</div>\n</div>\n".toList ++
     "<div class=\"listingblock\">\n<div class=\"content\">\n<pre class=\"highlight\"><code>x &amp; y</code></pre>\n</div>\n</div>\n".toList ++
     "<b>*raw*</b>\n".toList ++
     "<div class=\"sidebarblock\">\n<div class=\"content\">\n</div>\n</div>\n".toList) := by decide +kernel
  rw [sample_source, e2] at h
  exact h

/-- **Finding**: why `Separate` excludes an open block right after a paragraph. `BlockDelimiter` (parser.peg:723-737), which ends paragraphs, does not know
`--`: the delimiters become lines of the paragraph, -/
theorem finding_open_block : FragmentLoop.loopV sem acts (fun _ => false) 80 5 0 "a\n--\nb\n--".toList =
    some ⟨[[.paragraph [] [.raw "a\n".toList, .raw "--\n".toList, .raw "b\n".toList, .raw "--".toList]]], .endOfDocument, []⟩ := by kernel_rfl

/-- … whereas every other block ends the paragraph. -/
theorem other_blocks : FragmentLoop.loopV sem acts (fun _ => false) 80 5 0 "a\n====\nb\n====".toList =
    some ⟨[[.paragraph [] [.raw "a".toList]], [.block (compKind .example_) [] [.raw "b".toList]]], .endOfDocument, []⟩ := by kernel_rfl

end C62
end Verif
