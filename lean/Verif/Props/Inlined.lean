import Verif.Props.InlineRender

/-!
# C65 — Inline markup, from the text to the page
-/
namespace Verif
namespace C65
open PlainText Paragraphs Actions
open Inlined (Content)
open Walk (Any)
open Rend
open C60 (AllOk Article isPara)

/-! ### The elements of a document -/

/-- What becomes of a block: a paragraph whose elements stand for its markup. -/
inductive Becomes (reading : Text → List Inlined.Piece) : Block → Any → Prop
  | para {l : Line} {ls : List Line} {es : List Any} : (∀ u, Draws u es (Inlined.html u (reading (Prose.text (l :: ls))))) →
      Becomes reading (.para l ls) (.paragraph [] es)
  | blank {w : Text} : Becomes reading (.blank w) (.leaf 0)

variable {reading : Text → List Inlined.Piece}

/-- The paragraphs among the elements. -/
def kept (f : Block → Any) (bs : List Block) : List Any := (bs.filter isPara).map f

theorem kept_cons_blank (f : Block → Any) (w : Text) (bs : List Block) : kept f (.blank w :: bs) = kept f bs := rfl
theorem kept_cons_para (f : Block → Any) (l : Line) (ls : List Line) (bs : List Block) : kept f (.para l ls :: bs) = f (.para l ls) :: kept f bs := rfl

/-! ### The other stages -/

section
variable (num : Any → Nat)

mutual
/-- An inline element for the collection of footnotes. -/
def footInline : Any → Foot.FNode
  | .group _ _ es => .inline (footInlines es)
  | e => .leaf (num e)
def footInlines : List Any → List Foot.FNode
  | [] => []
  | e :: es => footInline e :: footInlines es
end

/-- An element for the collection of footnotes. -/
def footView : Any → Foot.FNode
  | .paragraph _ es => .para (footInlines num es)
  | e => .leaf (num e)

mutual
/-- An inline element for the filter. -/
def filterInline : Any → Filter.FEl
  | .group n a es => .parent (num (.group n a es)) (filterInlines es)
  | e => .leaf (num e)
def filterInlines : List Any → List Filter.FEl
  | [] => []
  | e :: es => filterInline e :: filterInlines es
end

/-- An element for the filter. -/
def filterView : Any → Filter.FEl
  | .paragraph a es => .parent (num (.paragraph a es)) (filterInlines num es)
  | _ => .blank

theorem sub_draws {u : Inlined.View} (n : Foot.Notes) {es : List Any} {h : Text} (hd : Draws u es h) : Foot.subInline n (footInlines num es) = (n, footInlines num es) := by
  induction hd with
  | nil => rfl
  | str _ _ ih => simp only [footInlines, footInline, Foot.subInline, ih]
  | special _ _ ih => simp only [footInlines, footInline, Foot.subInline, ih]
  | sign _ ih => simp only [footInlines, footInline, Foot.subInline, ih]
  | group _ _ _ _ ih => simp only [footInlines, footInline, Foot.subInline, ih]
  | ref _ ih => simp only [cross, footInlines, footInline, Foot.subInline, ih]

theorem filter_draws {u : Inlined.View} {es : List Any} {h : Text} (hd : Draws u es h) : Filter.filterOut (filterInlines num es) = filterInlines num es := by
  induction hd with
  | nil => simp [filterInlines, Filter.filterOut]
  | str _ _ ih => simp only [filterInlines, filterInline, Filter.filterOut, Filter.isNoise, Filter.inside, Filter.isEmptyHeader, ih]; rfl
  | special _ _ ih => simp only [filterInlines, filterInline, Filter.filterOut, Filter.isNoise, Filter.inside, Filter.isEmptyHeader, ih]; rfl
  | sign _ ih => simp only [filterInlines, filterInline, Filter.filterOut, Filter.isNoise, Filter.inside, Filter.isEmptyHeader, ih]; rfl
  | group _ _ _ i1 i2 => simp only [filterInlines, filterInline, Filter.filterOut, Filter.isNoise, Filter.inside, Filter.isEmptyHeader, i1, i2]; rfl
  | ref _ ih => simp only [cross, filterInlines, filterInline, Filter.filterOut, Filter.isNoise, Filter.inside, Filter.isEmptyHeader, ih]; rfl

variable {f : Block → Any}

/-- There are no footnotes. -/
theorem no_footnotes (n : Foot.Notes) : ∀ bs : List Block, (∀ b ∈ bs, Becomes reading b (f b)) → Foot.collectAll n (bs.map (fun b => [footView num (f b)])) =
    (n, bs.map (fun b => [footView num (f b)]))
  | [], _ => rfl
  | b :: bs, hf => by
    have h : Foot.substAll n [footView num (f b)] = (n, [footView num (f b)]) := by
      have := hf b List.mem_cons_self
      revert this
      generalize f b = e
      intro hb
      cases hb with
      | blank => rfl
      | para hd =>
        show ((Foot.subInline n _).1, [Foot.FNode.para (Foot.subInline n _).2]) = _
        rw [sub_draws num n (hd anyView)]
        rfl
    show ((Foot.collectAll (Foot.substAll n _).1 _).1, (Foot.substAll n _).2 :: (Foot.collectAll (Foot.substAll n _).1 _).2) = _
    rw [h, no_footnotes n bs (fun b hb => hf b (List.mem_cons_of_mem _ hb))]
    rfl

/-- Blank lines are dropped, paragraphs are kept. -/
theorem blanks_dropped : ∀ bs : List Block, (∀ b ∈ bs, Becomes reading b (f b)) →
    bs.flatMap (fun b => Filter.filterOut [filterView num (f b)]) = (kept f bs).map (filterView num)
  | [], _ => rfl
  | b :: bs, hf => by
    rw [List.flatMap_cons, blanks_dropped bs (fun b hb => hf b (List.mem_cons_of_mem _ hb))]
    have hb := hf b List.mem_cons_self
    cases b with
    | blank w =>
      rw [kept_cons_blank]
      revert hb
      generalize f (.blank w) = e
      intro hb
      cases hb
      show Filter.filterOut [.blank] ++ _ = (kept f bs).map _
      simp [Filter.filterOut, Filter.isNoise]
    | para l ls =>
      rw [kept_cons_para, List.map_cons]
      revert hb
      generalize f (.para l ls) = e
      intro hb
      cases hb with
      | para hd =>
        show Filter.filterOut [.parent _ (filterInlines num _)] ++ _ = _ :: (kept f bs).map _
        simp only [Filter.filterOut, Filter.isNoise, Filter.inside, Filter.isEmptyHeader, filter_draws num (hd anyView)]
        rfl

end

/-! ### The page -/

section
variable {f : Block → Any}

theorem header_none : ∀ bs : List Block, (∀ b ∈ bs, Becomes reading b (f b)) → header ((kept f bs).map (toEl id)) = none
  | [], _ => rfl
  | .blank _ :: bs, h => header_none bs (fun b hb => h b (List.mem_cons_of_mem _ hb))
  | .para l ls :: bs, h => by
    rw [kept_cons_para]
    have hb := h _ List.mem_cons_self
    revert hb
    generalize f (.para l ls) = e
    intro hb
    cases hb
    rfl

theorem no_decls (a : Attrs) : ∀ bs : List Block, (∀ b ∈ bs, Becomes reading b (f b)) → leadingDecls ((kept f bs).map (toEl id)) a = a
  | [], _ => rfl
  | .blank _ :: bs, h => no_decls a bs (fun b hb => h b (List.mem_cons_of_mem _ hb))
  | .para l ls :: bs, h => by
    rw [kept_cons_para]
    have hb := h _ List.mem_cons_self
    revert hb
    generalize f (.para l ls) = e
    intro hb
    cases hb
    rfl

theorem body_all : ∀ bs : List Block, (∀ b ∈ bs, Becomes reading b (f b)) → bodyElements ((kept f bs).map (toEl id)) = (kept f bs).map (toEl id)
  | [], _ => rfl
  | .blank _ :: bs, h => body_all bs (fun b hb => h b (List.mem_cons_of_mem _ hb))
  | .para l ls :: bs, h => by
    have ih := body_all bs (fun b hb => h b (List.mem_cons_of_mem _ hb))
    rw [kept_cons_para]
    have hb := h _ List.mem_cons_self
    revert hb
    generalize f (.para l ls) = e
    intro hb
    cases hb
    exact congrArg (_ :: ·) ih

/-- Without sections, there is nothing to refer to. -/
theorem sees_alone {L : Lib} {u : Bool} {c : Rend.Ctx} (hu : getBoolD c.attrs "unicode" true = u) (hr : c.refs = []) : Sees L id (Inlined.alone L.lower u) c where
  unicode := hu
  lower := rfl
  target _ := rfl
  label n pl i := by rw [hr]; rfl

theorem paras_show {letter number : Char → Bool} {L : Lib} {u : Bool} (hL : L.tmpl.paragraph = Tmpl.Html5.paragraphTmpl) (hQ : Quotes L) :
    ∀ {bs : List Block}, AllOk bs → (∀ l ls, .para l ls ∈ bs → Content letter number (Prose.text (l :: ls)) (reading (Prose.text (l :: ls)))) →
    (∀ b ∈ bs, Becomes reading b (f b)) →
    ∃ d, ∀ n ≥ d, ∀ c : Rend.Ctx, getBoolD c.attrs "unicode" true = u → c.refs = [] → hasOption c.attrs "hardbreaks" = false → c.within = false → c.withinList = 0 →
      renderAll (renderElement L (n + 2)) ((kept f bs).map (toEl id)) c = .ok (Inlined.page L.lower u reading bs, c)
  | [], _, _, _ => ⟨0, fun _ _ _ _ _ _ _ _ => rfl⟩
  | .blank w :: bs, h, hc, hf =>
    paras_show hL hQ (bs := bs) (fun l ls hm => h l ls (List.mem_cons_of_mem _ hm)) (fun l ls hm => hc l ls (List.mem_cons_of_mem _ hm))
      (fun b hb => hf b (List.mem_cons_of_mem _ hb))
  | .para l ls :: bs, h, hc, hf => by
    obtain ⟨d, ih⟩ := paras_show hL hQ (u := u) (bs := bs) (fun l ls hm => h l ls (List.mem_cons_of_mem _ hm)) (fun l ls hm => hc l ls (List.mem_cons_of_mem _ hm))
      (fun b hb => hf b (List.mem_cons_of_mem _ hb))
    have hcon := hc l ls List.mem_cons_self
    obtain ⟨h1, h2⟩ := C60.text_ends (h l ls List.mem_cons_self)
    have hb := hf _ List.mem_cons_self
    rw [kept_cons_para]
    revert hb
    generalize f (.para l ls) = e
    intro hb
    cases hb with
    | @para _ _ es hd =>
      obtain ⟨d', hs⟩ := draws_show hQ id (hd (Inlined.alone L.lower u))
      refine ⟨d + d', fun n hn c hu hrefs hh hw hl => ?_⟩
      refine all_cons (paragraph_shows hL hh hw hl id (hs n (by omega) c (sees_alone hu hrefs)) ?_ ?_) (ih n (by omega) c hu hrefs hh hw hl)
      · exact html_head _ hcon.ok (by rw [← hcon.written]; exact h1)
      · exact html_last _ hcon.ok (by rw [← hcon.written]; exact h2)

/-- The page. -/
theorem page_of {letter number : Char → Bool} {L : Lib} {cfg : Config} (hL : L.tmpl.paragraph = Tmpl.Html5.paragraphTmpl) (hQ : Quotes L) (hA : Article L cfg)
    {bs : List Block} (hok : AllOk bs) (hcon : ∀ l ls, .para l ls ∈ bs → Content letter number (Prose.text (l :: ls)) (reading (Prose.text (l :: ls))))
    (hf : ∀ b ∈ bs, Becomes reading b (f b)) :
    ∃ d, ∀ n ≥ d, render L (n + 2) ⟨(kept f bs).map (toEl id), [], [], none⟩ cfg = .ok (Inlined.page L.lower (getBoolD cfg.attrs "unicode" true) reading bs) := by
  obtain ⟨d, hs⟩ := paras_show (u := getBoolD cfg.attrs "unicode" true) hL hQ hok hcon hf
  refine ⟨d, fun n hn => ?_⟩
  have hu : getBoolD (defaultAttrs cfg) "unicode" true = getBoolD cfg.attrs "unicode" true := by
    unfold getBoolD
    rw [C60.get_default cfg (by decide)]
  have hh : hasOption (defaultAttrs cfg) "hardbreaks" = false := by
    have := hA.hardbreaks
    unfold hasOption Rend.has at this ⊢
    rw [C60.get_default cfg (by decide), C60.get_default cfg (by decide)]
    exact this
  have hd : getStrD L.sprint (defaultAttrs cfg) "doctype" "article".toList ≠ "manpage".toList := by
    have := hA.doctype
    unfold getStrD at this ⊢
    rw [C60.get_default cfg (by decide)]
    exact this
  generalize hdoc : (⟨(kept f bs).map (toEl id), [], [], none⟩ : Doc) = D
  have hels : D.elements = (kept f bs).map (toEl id) := by rw [← hdoc]
  have hnotes : D.footnotes = [] := by rw [← hdoc]
  have htoc : D.toc = none := by rw [← hdoc]
  have hhead : header D.elements = none := by rw [hels]; exact header_none bs hf
  let c : Rend.Ctx := ⟨defaultAttrs cfg, false, 0, [], [], false, sectionNumbers D.elements, []⟩
  have hctx : newContext D cfg = .ok ⟨defaultAttrs cfg, false, 0, [], [], false, [], []⟩ := by
    unfold newContext
    rw [hhead, ← hdoc]
    rfl
  have hstart : startContext D ⟨defaultAttrs cfg, false, 0, [], [], false, [], []⟩ = c := by
    unfold startContext
    rw [hhead]
    show ({ attrs := leadingDecls D.elements (defaultAttrs cfg), .. } : Rend.Ctx) = _
    rw [hels, no_decls _ bs hf, ← hels]
  have hall := hs n hn c hu rfl hh rfl rfl
  have hbody : documentBody L (renderElement L (n + 2)) ((kept f bs).map (toEl id)) none [] c =
      .ok (Inlined.page L.lower (getBoolD cfg.attrs "unicode" true) reading bs, c) := by
    unfold documentBody
    show M.bind (M.lift (placeToc _ none _)) _ c = _
    unfold M.bind
    rw [C60.place_none]
    show M.bind (renderAll _ _) _ c = _
    unfold M.bind
    rw [hall]
    show Except.ok (Inlined.page _ _ reading bs ++ [], c) = _
    rw [List.append_nil]
  have hsplit : ∀ pl, splitAndRender L (renderElement L (n + 2)) pl cfg.wrap { D with toc := none } c =
      .ok (([], Inlined.page L.lower (getBoolD cfg.attrs "unicode" true) reading bs), c) := by
    intro pl
    unfold splitAndRender
    show (if getStrD L.sprint (defaultAttrs cfg) "doctype" "article".toList = "manpage".toList then (_ : M (Text × Text)) else _) c = _
    rw [if_neg hd]
    show M.bind (documentHeader L _ (header D.elements)) _ c = _
    unfold M.bind
    rw [hhead]
    show M.bind (documentBody L _ (bodyElements D.elements) none D.footnotes) _ c = _
    unfold M.bind
    rw [hels, body_all bs hf, hnotes, hbody]
    rfl
  unfold render
  dsimp only
  rw [hctx]
  dsimp only
  rw [hhead, hstart]
  show (match renderParts L _ _ cfg.wrap D c with
    | .error e => Except.error e
    | .ok (parts, c) => renderPage L D cfg _ parts c) = _
  have hparts : ∀ pl, renderParts L (renderElement L (n + 2)) pl cfg.wrap D c =
      .ok (([], Inlined.page L.lower (getBoolD cfg.attrs "unicode" true) reading bs, []), c) := by
    intro pl
    unfold renderParts
    rw [htoc]
    show M.bind (splitAndRender L _ pl cfg.wrap { D with toc := none }) _ c = _
    unfold M.bind
    rw [hsplit pl]
    show M.bind (documentRoles _ (header D.elements)) _ c = _
    rw [hhead]
    rfl
  rw [hparts]
  dsimp only
  unfold renderPage
  rw [hA.body]
  rfl

end

/-! ### From the text to the page -/

/-- The substitutions of a block. -/
theorem becomes {letter number : Char → Bool} {W : Walk.World} (hW : Spoken letter number W) {alnum : Char → Bool} : ∀ {bs : List Block}, Good alnum bs →
    (∀ l ls, .para l ls ∈ bs → Content letter number (Prose.text (l :: ls)) (reading (Prose.text (l :: ls)))) → ∀ (c : Walk.Ctx), ∀ b ∈ bs,
    ∃ e, Walk.substFragment W c (.elements [b.element]) = .ok (.elements [e], c) ∧ Becomes reading b e
  | [], _, _, _, _, h => nomatch h
  | b :: bs, hg, hp, c, x, hx => by
    rcases List.mem_cons.mp hx with rfl | hx
    · cases x with
      | para l ls =>
        have hc := hp l ls List.mem_cons_self
        obtain ⟨es, he, hd⟩ := substituted hW c [] hg.1 (show Content letter number (C59.body (l :: ls)) _ by rw [C60.text_eq]; exact hc)
        exact ⟨_, by simp only [Walk.substFragment, Walk.substAll, Block.element, Walk.substOne, he], .para hd⟩
      | blank w => exact ⟨_, rfl, .blank⟩
    · exact becomes hW (C59.good_tail hg) (fun l ls h => hp l ls (List.mem_cons_of_mem _ h)) c x hx

/-- The stages of a conversion (libasciidoc.go:50-98, document_processing.go:16-46), for a document whose elements are paragraphs and blank lines: the text
`src` is preprocessed; the result is cut into blocks, each one a fragment; the fragments are refined; substitutions are applied; footnotes are
collected; lists are arranged; blank lines are filtered out; what remains is aggregated, and rendered. `num` names elements for the stages whose
models do not look at them; elements can be nested, and the renderer is given enough steps. -/
structure Stages {σ : Type} (env : Env) (files : Nat) (ctx : Verif.Ctx) (S : Peg.Sem σ) (A : Peg.Code σ) (s : σ) (R : Refine.Reader) (W : Walk.World)
    (c : Walk.Ctx) (L : Lib) (cfg : Config) (src : Text) (html : Text) where
  text : Text
  blocks : List Any
  contents : List Any
  kept : List Any
  preprocessed : preprocess env (files + 1) ctx src = .ok (text, ctx.offsets)
  parsed : ∃ depth rounds, FragmentLoop.loopV S A (fun _ => false) depth rounds s text = some ⟨blocks.map (fun b => [b]), .endOfDocument, []⟩
  refined : ∀ b ∈ blocks, ∀ n, Refine.refineFragment R (n + 1) (.elements [b]) = .done (.elements [b])
  same : contents.length = blocks.length
  substituted : ∀ p ∈ blocks.zip contents, Walk.substFragment W c (.elements [p.1]) = .ok (.elements [p.2], c)
  footnotes : ∀ num notes, Foot.collectAll notes (contents.map (fun e => [footView num e])) = (notes, contents.map (fun e => [footView num e]))
  lists : ∀ (num : Any → Nat), ∀ e ∈ contents, Lists.arrangeEls [.leaf (num e)] = some [.leaf (num e)]
  filtered : ∀ num, contents.flatMap (fun e => Filter.filterOut [filterView num e]) = kept.map (filterView num)
  aggregated : ∀ (num : Any → Nat), aggregateTree (kept.map (fun e => .block (num e) [])) = C60.siblings (kept.map (fun e => .block (num e) []))
  preamble : ∀ (num : Any → Nat), insertPreamble (kept.map (fun e => .block (num e) [])) = (kept.map (fun e => .block (num e) [])).map .elem
  rendered : ∃ steps, ∀ n ≥ steps, render L n ⟨kept.map (toEl id), [], [], none⟩ cfg = .ok html

theorem page_trimmed (lower : Text → Text) (u : Bool) (bs : List Block) : Inlined.page lower u reading (trimmed bs) = Inlined.page lower u reading bs := by
  unfold trimmed
  split
  · next h =>
    conv => rhs; rw [← List.dropLast_append_getLast? _ h]
    unfold Inlined.page
    rw [List.flatMap_append]
    show _ = _ ++ []
    rw [List.append_nil]
  · rfl

/-- **C65**: paragraphs with inline markup, from the text to the page: the marks become HTML elements around what they enclose, at any depth, signs become the
characters they stand for, and the rest of the text appears as it is written. -/
theorem text_to_page {σ τ : Type} {env : Env} {S0 : Peg.Sem τ} {elem : τ → Option RawElem} {sects within : τ → Bool} (hE : C50.Reads env S0 elem sects within)
    (files : Nat) {ctx : Verif.Ctx} (hroot : ctx.sectEnabled = false) {S : Peg.Sem σ} {A : Peg.Code σ} (hS : C59.Code S) (hA : Actions.Obeys A) (s : σ)
    (R : Refine.Reader) {letter number : Char → Bool} {W : Walk.World} (hW : Spoken letter number W) (c : Walk.Ctx) {L : Lib}
    (hL : L.tmpl.paragraph = Tmpl.Html5.paragraphTmpl) (hQ : Quotes L)
    {cfg : Config} (hcfg : Article L cfg) {bs : List Block} (hg : Good (C59.alnum S) bs) (hu : ∀ l ∈ lines bs, C50.Untouched l)
    (hp : ∀ l ls, .para l ls ∈ bs → Content letter number (Prose.text (l :: ls)) (reading (Prose.text (l :: ls)))) :
    Nonempty (Stages env files ctx S A s R W c L cfg (source bs) (Inlined.page L.lower (getBoolD cfg.attrs "unicode" true) reading bs)) := by
  obtain ⟨f, hf⟩ : ∃ f : Block → Any, ∀ b, b ∈ bs → Walk.substFragment W c (.elements [b.element]) = .ok (.elements [f b], c) ∧ Becomes reading b (f b) := by
    refine Classical.skolem (p := fun b e => b ∈ bs → Walk.substFragment W c (.elements [b.element]) = .ok (.elements [e], c) ∧ Becomes reading b e).mp
      (fun b => ?_)
    by_cases hb : b ∈ bs
    · obtain ⟨e, h⟩ := becomes hW hg hp c b hb
      exact ⟨e, fun _ => h⟩
    · exact ⟨.nil, fun h => absurd h hb⟩
  have hb : ∀ b ∈ trimmed bs, Becomes reading b (f b) := fun b h => (hf b (C60.mem_trimmed h)).2
  refine ⟨⟨joinLF (lines bs), (trimmed bs).map Block.element, (trimmed bs).map f, kept f (trimmed bs),
    C50.document_unchanged hE files ctx hroot (lines bs) hu, ?_, ?_, by simp, ?_, ?_, ?_, ?_, fun num => C60.flat num _, fun num => C60.no_preamble num _, ?_⟩⟩
  · rw [List.map_map]
    exact C59.paragraphs_preprocessed hS hA hg s
  · intro b hb n
    obtain ⟨x, _, rfl⟩ := List.mem_map.mp hb
    exact C60.nothing_to_refine R n x
  · intro p hm
    rw [List.zip_map', List.mem_map] at hm
    obtain ⟨x, hx, rfl⟩ := hm
    exact (hf x (C60.mem_trimmed hx)).1
  · intro num notes
    rw [List.map_map]
    exact no_footnotes num notes (trimmed bs) hb
  · intro num e he
    rfl
  · intro num
    rw [List.flatMap_map]
    exact blanks_dropped num (trimmed bs) hb
  · rw [← page_trimmed]
    obtain ⟨d, h⟩ := page_of hL hQ hcfg (fun l ls h => C60.allOk_of hg l ls (C60.mem_trimmed h)) (fun l ls h => hp l ls (C60.mem_trimmed h)) hb
    refine ⟨d + 2, fun n hn => ?_⟩
    obtain ⟨m, rfl⟩ : ∃ m, n = m + 2 := ⟨n - 2, by omega⟩
    exact h m (by omega)

/-- Elements stand for one HTML text only. -/
theorem draws_one {u : Inlined.View} {es : List Any} {g h : Text} (h1 : Draws u es g) (h2 : Draws u es h) : g = h := by
  induction h1 generalizing h with
  | nil => cases h2; rfl
  | str _ _ ih => cases h2 with | str _ h2 => rw [ih h2]
  | special _ _ ih => cases h2 with | special _ h2 => rw [ih h2]
  | @sign s es h _ ih =>
    generalize e : Any.leaf (signLabel s) = x at h2
    cases h2 with
    | str _ _ => cases e
    | special _ _ => cases e
    | @sign s' _ _ h2 =>
      have : s = s' := by
        injection e with e
        revert e
        cases s <;> cases s' <;> first | exact fun _ => rfl | exact fun e => absurd e (by decide)
      rw [ih h2, this]
    | group _ _ _ => cases e
    | ref _ => cases e
  | @group k xs es g h hk hx _ i1 i2 =>
    generalize e : Any.group (quotedLabel k) [] xs = x at h2
    cases h2 with
    | str _ _ => cases e
    | special _ _ => cases e
    | sign _ => cases e
    | @group k' xs' _ g' h' hk' hx' h2 =>
      injection e with e1 _ e3
      have : k = k' := by unfold quotedLabel at e1; omega
      subst this e3
      rw [i1 hx', i2 h2]
    | ref _ => cases e
  | @ref id l es h _ ih =>
    generalize e : cross id l = x at h2
    cases h2 with
    | str _ _ => cases e
    | special _ _ => cases e
    | sign _ => cases e
    | group _ _ _ => cases e
    | @ref id' l' _ _ h2 =>
      injection e with _ e
      have e1 := (List.cons.inj e).1
      have e2 := (List.cons.inj (List.cons.inj e).2).1
      injection e1 with e1
      have : l = l' := by
        cases l with
        | none => cases l' with
          | none => rfl
          | some y => exact nomatch (show Any.nil = Any.text y from e2)
        | some x => cases l' with
          | none => exact nomatch (show Any.text x = Any.nil from e2)
          | some y => exact congrArg some (Any.text.inj e2)
      rw [ih h2, e1, this]

/-- A text has one meaning: readings of the same text show the same. -/
theorem unambiguous {σ : Type} {S : Peg.Sem σ} {A : Peg.Code σ} {E : List Subs.Sub} {f : σ → Option Char} (h : Inl S A E f) (s : σ) (hs : f s = none) {t : Text}
    {ps qs : List Inlined.Piece} (hp : Content S.letter S.number t ps) (hq : Content S.letter S.number t qs) (u : Inlined.View) : Inlined.html u ps = Inlined.html u qs := by
  by_cases hne : t = []
  · have e : ∀ {rs : List Inlined.Piece}, Content S.letter S.number t rs → rs = [] := by
      intro rs hr
      cases rs with
      | nil => rfl
      | cons r rs =>
        have := hr.written
        rw [hne] at this
        exact absurd (List.append_eq_nil_iff.mp this.symm).1 (piece_ne hr.ok.1)
    rw [e hp, e hq]
  · obtain ⟨n, s1, es, h1, hd1⟩ := parsed (u := u) h hp hne s hs
    obtain ⟨m, s2, es2, h2, hd2⟩ := parsed (u := u) h hq hne s hs
    have := Peg.runV_one h1 h2
    injection this with _ h3 _
    injection h3 with h3 _
    injection h3 with h3
    subst h3
    exact draws_one hd1 hd2

end C65
end Verif
