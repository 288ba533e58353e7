import Verif.Props.WovenRefs

/-!
# C69 — Documents with sections, lists, delimited blocks and inline markup, from the text to the page
-/
namespace Verif
namespace C69
open Sectioned
open Walk (Any)
open Composed (Block)
open Inlined (Content)
open C65 (Draws Quotes Spoken)
open Rend hiding Item bind_ok
open C63 (seen secOf refOf tocOf shown tocTree docOf)

/-! ### The elements -/

/-- What the items become, if the paragraphs of the document become `f`. -/
def mix (f : Item → Any) (g : Item → Any) : Item → Any
  | .block (.para l ls) => f (.block (.para l ls))
  | x => g x

/-- A paragraph becomes elements that stand for its markup. -/
def Turns (reading : Text → List Inlined.Piece) (f : Item → Any) (l : Paragraphs.Line) (ls : List Paragraphs.Line) : Prop :=
  ∃ es, f (.block (.para l ls)) = .paragraph [] es ∧ ∀ u, Draws u es (Inlined.html u (reading (Prose.text (l :: ls))))

def AllTurn (reading : Text → List Inlined.Piece) (f : Item → Any) (xs : List Item) : Prop := ∀ l ls, .block (.para l ls) ∈ xs → Turns reading f l ls

section
variable (num : Any → Nat)

/-- An element for the collection of footnotes. -/
def footView : Any → Foot.FNode
  | .paragraph a es => C65.footView num (.paragraph a es)
  | e => C62.footOf num e

/-- An element for the filter. -/
def filterView : Any → Filter.FEl
  | .paragraph a es => C65.filterView num (.paragraph a es)
  | e => C62.filterOf num e

end

/-- An element for the renderer, with resolved references. -/
def elView (fix : Text → Text) : Any → El
  | .paragraph a es => C65.toEl fix (.paragraph a es)
  | e => C62.el e

variable {reading : Text → List Inlined.Piece} {f : Item → Any}

/-- Not a paragraph of the document. -/
def other : Item → Prop
  | .block (.para _ _) => False
  | _ => True

theorem mix_other {g : Item → Any} {x : Item} (h : other x) : mix f g x = g x := by
  cases x with
  | block b => cases b <;> first | rfl | exact h.elim
  | heading h => rfl
  | list n ns => rfl

theorem foot_other (num : Any → Nat) {x : Item} (h : other x) : footView num (C63.content x) = C62.footOf num (C63.content x) := by
  cases x with
  | block b => cases b <;> first | rfl | exact h.elim
  | heading h => rfl
  | list n ns => rfl

theorem filter_other (num : Any → Nat) {x : Item} (h : other x) : filterView num (C63.placed x) = C62.filterOf num (C63.placed x) := by
  cases x with
  | block b => cases b <;> first | rfl | exact h.elim
  | heading h => rfl
  | list n ns => rfl

theorem filter_final (num : Any → Nat) {x : Item} (h : other x) : filterView num (C63.finalItem x) = C62.filterOf num (C63.finalItem x) := by
  cases x with
  | block b => cases b <;> first | rfl | exact h.elim
  | heading h => rfl
  | list n ns => rfl

theorem el_other (fix : Text → Text) {x : Item} (h : other x) : elView fix (C63.finalItem x) = C62.el (C63.finalItem x) := by
  cases x with
  | block b => cases b <;> first | rfl | exact h.elim
  | heading h => rfl
  | list n ns => rfl

theorem other_or (x : Item) : other x ∨ ∃ l ls, x = .block (.para l ls) := by
  cases x with
  | block b => cases b <;> first | exact .inl trivial | exact .inr ⟨_, _, rfl⟩
  | heading h => exact .inl trivial
  | list n ns => exact .inl trivial

/-! ### The stages -/

theorem substituted {letter number : Char → Bool} {W : Walk.World} (hG : C59.Grammatical W) (hW : Spoken letter number W) {alnum : Char → Bool} (c : Walk.Ctx) {x : Item} (h : x.Ok alnum)
    (hr : Woven.Item.Ready letter number reading x) :
    (other x → Walk.substOne W c [] (C63.refined x) = .ok (C63.content x, c)) ∧
    (∀ l ls, x = .block (.para l ls) → ∃ es, Walk.substOne W c [] (C63.refined x) = .ok (.paragraph [] es, c) ∧ ∀ u, Draws u es (Inlined.html u (reading (Prose.text (l :: ls))))) := by
  constructor
  · intro ho
    refine C63.substituted_item hG c [] h ?_
    cases x with
    | block b => cases b <;> first | exact hr | exact ho.elim
    | heading h => exact hr
    | list n ns => exact hr
  · rintro l ls rfl
    exact C65.substituted hW c [] h.1 (show Content letter number (C59.body (l :: ls)) _ by rw [C60.text_eq]; exact hr)

theorem no_footnotes (num : Any → Nat) (n : Foot.Notes) : ∀ xs : List Item, AllTurn reading f xs →
    Foot.collectAll n (xs.map (fun x => [footView num (mix f C63.content x)])) = (n, xs.map (fun x => [footView num (mix f C63.content x)]))
  | [], _ => rfl
  | x :: xs, hf => by
    have h : Foot.substAll n [footView num (mix f C63.content x)] = (n, [footView num (mix f C63.content x)]) := by
      rcases other_or x with ho | ⟨l, ls, rfl⟩
      · rw [mix_other ho, foot_other num ho]
        have := C63.no_footnotes num n [x]
        have := Prod.mk.inj (show ((Foot.substAll n [C62.footOf num (C63.content x)]).1, [(Foot.substAll n [C62.footOf num (C63.content x)]).2]) =
          (n, [[C62.footOf num (C63.content x)]]) from this)
        exact Prod.ext this.1 (List.cons.inj this.2).1
      · obtain ⟨es, he, hd⟩ := hf l ls List.mem_cons_self
        rw [show mix f C63.content (.block (.para l ls)) = .paragraph [] es from he]
        show ((Foot.subInline n _).1, [Foot.FNode.para (Foot.subInline n _).2]) = _
        rw [C65.sub_draws num n (hd C65.anyView)]
        rfl
    show ((Foot.collectAll (Foot.substAll n _).1 _).1, (Foot.substAll n _).2 :: (Foot.collectAll (Foot.substAll n _).1 _).2) = _
    rw [h, no_footnotes num n xs (fun l ls h => hf l ls (List.mem_cons_of_mem _ h))]
    rfl

theorem placed {alnum : Char → Bool} (num : Any → Nat) {x : Item} (h : x.Ok alnum) (hf : ∀ l ls, x = .block (.para l ls) → Turns reading f l ls) :
    Lists.arrangeEls [C62.listOf num (mix f C63.content x)] = some [C62.arrangedOf num (mix f C63.placed x)] := by
  rcases other_or x with ho | ⟨l, ls, rfl⟩
  · rw [mix_other ho, mix_other ho]
    exact C63.placed_item num h
  · obtain ⟨es, he, _⟩ := hf l ls rfl
    rw [show mix f C63.content (.block (.para l ls)) = .paragraph [] es from he, show mix f C63.placed (.block (.para l ls)) = .paragraph [] es from he]
    rfl

theorem filtered {alnum : Char → Bool} (num : Any → Nat) : ∀ xs : List Item, (∀ x ∈ xs, x.Ok alnum) → AllTurn reading f xs →
    (xs.map (mix f C63.placed)).flatMap (fun e => Filter.filterOut [filterView num e]) = ((xs.filter seen).map (mix f C63.finalItem)).map (filterView num)
  | [], _, _ => rfl
  | x :: xs, hok, hf => by
    have ih := filtered num xs (fun y hy => hok y (List.mem_cons_of_mem _ hy)) (fun l ls h => hf l ls (List.mem_cons_of_mem _ h))
    rw [List.map_cons, List.flatMap_cons, ih]
    rcases other_or x with ho | ⟨l, ls, rfl⟩
    · rw [mix_other ho, filter_other num ho]
      have h1 := C63.filter_document num [x] (fun y hy => by rw [List.mem_singleton.mp hy]; exact hok x List.mem_cons_self)
      rw [List.map_cons, List.map_nil, List.flatMap_cons, List.flatMap_nil, List.append_nil] at h1
      rw [h1]
      cases hs : seen x with
      | true =>
        rw [List.filter_cons_of_pos hs, List.filter_cons_of_pos hs]
        show C62.filterOf num (C63.finalItem x) :: _ = filterView num (mix f C63.finalItem x) :: _
        rw [mix_other ho, filter_final num ho]
        rfl
      | false =>
        rw [List.filter_cons_of_neg (by simp [hs]), List.filter_cons_of_neg (by simp [hs])]
        rfl
    · obtain ⟨es, he, hd⟩ := hf l ls List.mem_cons_self
      rw [List.filter_cons_of_pos rfl, List.map_cons, List.map_cons, show mix f C63.placed (.block (.para l ls)) = .paragraph [] es from he,
        show mix f C63.finalItem (.block (.para l ls)) = .paragraph [] es from he]
      show Filter.filterOut [.parent _ (C65.filterInlines num es)] ++ _ = _
      simp only [Filter.filterOut, Filter.isNoise, Filter.inside, Filter.isEmptyHeader, C65.filter_draws num (hd C65.anyView)]
      rfl

theorem kept_of {xs : List Item} (hf : AllTurn reading f xs) : Kept (mix f C63.finalItem) xs where
  heading h _ := rfl
  block b hb num := by
    cases b with
    | para l ls =>
      obtain ⟨es, he, _⟩ := hf l ls hb
      rw [show mix f C63.finalItem (.block (.para l ls)) = .paragraph [] es from he]
      rfl
    | blank w => rfl
    | verb k g ls => rfl
    | comp k g bs => rfl
  list n ns _ num := rfl

/-! ### Rendering -/

theorem quotes_of {L : Lib} {R : Html.Rules} (hL : L.tmpl = Html.templatesOf R) : Quotes L := by
  obtain ⟨x, o⟩ := R
  constructor <;> (rw [hL]; cases x <;> rfl)

/-- A block or a list in HTML. -/
def itemHtml (v : Inlined.View) (reading : Text → List Inlined.Piece) : Item → Text
  | .block b => Woven.block v reading b
  | .list n ns => Listed.html v.unicode (n :: ns)
  | .heading _ => []

theorem html_showing (v : Inlined.View) : ∀ (m : Nat) (ys : List (Item × Text)), ys.length ≤ m → Woven.html v reading ys = showing v.lower v.unicode (itemHtml v reading) ys
  | _, [], _ => by rw [Woven.html, showing]
  | m + 1, (.block b, id) :: ys, hm => by rw [Woven.html, showing, html_showing v m ys (by simpa using hm)]; rfl
  | m + 1, (.list x xs, id) :: ys, hm => by rw [Woven.html, showing, html_showing v m ys (by simpa using hm)]; rfl
  | m + 1, (.heading h, id) :: ys, hm => by
    have hm : ys.length ≤ m := by simpa using hm
    rw [Woven.html, showing, html_showing v m _ (Nat.le_trans (takeWhile_length _ _) hm), html_showing v m _ (Nat.le_trans (dropWhile_length _ _) hm)]

theorem showing_filter (lower : Text → Text) (u : Bool) (html : Item → Text) (hb : ∀ w, html (.block (.blank w)) = []) : ∀ (m : Nat) (ys : List (Item × Text)), ys.length ≤ m →
    showing lower u html (ys.filter (fun y => seen y.1)) = showing lower u html ys
  | _, [], _ => rfl
  | m + 1, (.block b, id) :: ys, hm => by
    have ih := showing_filter lower u html hb m ys (by simpa using hm)
    cases hs : seen (.block b) with
    | true => rw [List.filter_cons_of_pos (by exact hs), showing, showing, ih]
    | false =>
      rw [List.filter_cons_of_neg (by simp [hs]), ih, showing]
      cases b with
      | blank w => rw [hb]; rfl
      | para l ls => cases hs
      | verb k f ls => cases hs
      | comp k f bs => cases hs
  | m + 1, (.list x xs, id) :: ys, hm => by
    have ih := showing_filter lower u html hb m ys (by simpa using hm)
    rw [List.filter_cons_of_pos rfl, showing, showing, ih]
  | m + 1, (.heading h, id) :: ys, hm => by
    have hm : ys.length ≤ m := by simpa using hm
    have ih1 := showing_filter lower u html hb m (ys.takeWhile (deeper h.level)) (Nat.le_trans (takeWhile_length _ _) hm)
    have ih2 := showing_filter lower u html hb m (ys.dropWhile (deeper h.level)) (Nat.le_trans (dropWhile_length _ _) hm)
    rw [List.filter_cons_of_pos rfl, showing, showing, C63.takeWhile_filter (C63.blank_deeper h.level), C63.dropWhile_filter (C63.blank_deeper h.level), ih1, ih2]

theorem page_showing (lower : Text → Text) (alnum : Char → Bool) (u : Bool) (xs : List Item) :
    showing lower u (itemHtml (Woven.view lower alnum u xs) reading) (shown alnum xs) = Woven.page lower alnum u reading xs := by
  unfold shown Woven.page
  rw [C63.named_filter, showing_filter lower u _ (fun _ => rfl) _ _ (Nat.le_refl _), html_showing (Woven.view lower alnum u xs) _ _ (Nat.le_refl _)]
  rfl

theorem paragraph_writes {letter number : Char → Bool} {L : Lib} {v : Inlined.View} {fix : Text → Text} {refs : List (Text × AV)}
    (hsee : ∀ c, C62.Fine v.unicode c → c.refs = refs → C65.Sees L fix v c) (hL : L.tmpl.paragraph = Tmpl.Html5.paragraphTmpl) (hQ : Quotes L) {alnum : Char → Bool} {l : Paragraphs.Line} {ls : List Paragraphs.Line}
    (hok : (Block.para l ls).Ok alnum) (hcon : Content letter number (Prose.text (l :: ls)) (reading (Prose.text (l :: ls)))) {es : List Any}
    (hd : Draws v es (Inlined.html v (reading (Prose.text (l :: ls))))) :
    ∃ N, ∀ n, N ≤ n → Writes refs (renderElement L n (elView fix (.paragraph [] es))) v.unicode (Woven.block v reading (.para l ls)) := by
  obtain ⟨h1, h2⟩ := C60.text_ends (ls := l :: ls) (fun x hx => (List.mem_cons.mp hx).elim (fun e => e ▸ hok.1) (fun h => (hok.2.2 x h).1))
  obtain ⟨d, hs⟩ := C65.draws_show hQ fix hd
  refine ⟨d + 2, fun n hn c hc _ hr => ⟨c.counters, ?_⟩⟩
  obtain ⟨m, rfl⟩ := Nat.exists_eq_add_of_le' (show 2 ≤ n by omega)
  exact C65.paragraph_shows hL hc.hardbreaks hc.within hc.withinList fix (hs m (by omega) c (hsee c hc hr))
    (C65.html_head v hcon.ok (by rw [← hcon.written]; exact h1)) (C65.html_last v hcon.ok (by rw [← hcon.written]; exact h2))

/-- What is made of an item of the page. -/
theorem item_writes {letter number : Char → Bool} {L : Lib} {v : Inlined.View} {fix : Text → Text} {refs : List (Text × AV)}
    (hsee : ∀ c, C62.Fine v.unicode c → c.refs = refs → C65.Sees L fix v c) {R : Html.Rules} (hL : L.tmpl = Html.templatesOf R) (hQ : Quotes L) {alnum : Char → Bool} {x : Item} (hok : x.Ok alnum)
    (hs : seen x = true) (hr : Woven.Item.Ready letter number reading x) (hf : ∀ l ls, x = .block (.para l ls) → Turns reading f l ls) (hh : ∀ h, x ≠ .heading h) :
    ∃ N, ∀ n, N ≤ n → Writes refs (renderElement L n (elView fix (mix f C63.finalItem x))) v.unicode (itemHtml v reading x) := by
  rcases other_or x with ho | ⟨l, ls, rfl⟩
  · rw [mix_other ho, el_other fix ho]
    suffices h : ∃ N, ∀ n, N ≤ n → C62.Writes' (renderElement L n (C62.el (C63.finalItem x))) v.unicode (itemHtml v reading x) by
      obtain ⟨N, hN⟩ := h
      exact ⟨N, fun n hn c hc _ _ => hN n hn c hc⟩
    cases x with
    | block b =>
      have hnb : ∀ w, b ≠ .blank w := by rintro w rfl; cases hs
      have := C62.block_shows (u := v.unicode) hL hok hnb
      have e : itemHtml v reading (.block b) = b.html v.unicode := by cases b <;> first | rfl | exact ho.elim
      rw [e]
      exact this
    | heading h => exact absurd rfl (hh h)
    | list n ns => exact C64.list_shows hL hok
  · obtain ⟨es, he, hd⟩ := hf l ls rfl
    rw [show mix f C63.finalItem (.block (.para l ls)) = .paragraph [] es from he]
    exact paragraph_writes hsee (C62.para_template hL) hQ hok hr (hd v)

theorem item_simple (fix : Text → Text) {x : Item} (hs : seen x = true) (hf : ∀ l ls, x = .block (.para l ls) → Turns reading f l ls) (hh : ∀ h, x ≠ .heading h) :
    Simple (elView fix (mix f C63.finalItem x)) := by
  rcases other_or x with ho | ⟨l, ls, rfl⟩
  · rw [mix_other ho, el_other fix ho]
    cases x with
    | block b => cases b with
      | para l ls => exact ho.elim
      | blank w => cases hs
      | verb k g ls => exact .inr (.inl ⟨_, _, _, rfl⟩)
      | comp k g bs => exact .inr (.inl ⟨_, _, _, rfl⟩)
    | heading h => exact absurd rfl (hh h)
    | list n ns => exact .inr (.inr ⟨_, _, _, C63.el_list (n :: ns)⟩)
  · obtain ⟨es, he, hd⟩ := hf l ls rfl
    rw [show mix f C63.finalItem (.block (.para l ls)) = .paragraph [] es from he]
    exact .inl ⟨_, _, rfl⟩

/-! ### From the text to the page -/

/-- The stages of a conversion (libasciidoc.go:50-98, document_processing.go:16-46), as in C63: the text `src` is preprocessed; the result is cut into items, each
one a fragment; the content of blocks is parsed; substitutions are applied; footnotes are collected; lists are arranged; blank lines are filtered out; what
remains is aggregated into a tree, in which references are resolved with the attributes and the sections of the whole document, and rendered. The paragraphs of the document may contain inline elements, at any depth. -/
structure Stages {σ : Type} (env : Env) (files : Nat) (ctx : Verif.Ctx) (S : Peg.Sem σ) (A : Peg.Code σ) (s : σ) (D : Refine.Reader) (W : Walk.World)
    (c : Walk.Ctx) (fmt : Val → Text) (pa : CtxAttrs) (L : Lib) (cfg : Config) (src : Text) (html : Text) where
  text : Text
  items : List Any
  refined : List Any
  contents : List Any
  placed : List Any
  kept : List Any
  doc : Doc
  preprocessed : preprocess env (files + 1) ctx src = .ok (text, ctx.offsets)
  parsed : ∃ depth rounds, FragmentLoop.loopV S A (fun _ => false) depth rounds s text = some ⟨items.map (fun b => [b]), .endOfDocument, []⟩
  same : refined.length = items.length
  found : ∀ p ∈ items.zip refined, ∃ N, ∀ n, N ≤ n → Refine.refineFragment D n (.elements [p.1]) = .done (.elements [p.2])
  same' : contents.length = refined.length
  substituted : ∀ p ∈ refined.zip contents, Walk.substFragment W c (.elements [p.1]) = .ok (.elements [p.2], c)
  footnotes : ∀ num notes, Foot.collectAll notes (contents.map (fun e => [footView num e])) = (notes, contents.map (fun e => [footView num e]))
  same'' : placed.length = contents.length
  lists : ∀ num, ∀ p ∈ contents.zip placed, Lists.arrangeEls [C62.listOf num p.1] = some [C62.arrangedOf num p.2]
  filtered : ∀ num, placed.flatMap (fun e => Filter.filterOut [filterView num e]) = kept.map (filterView num)
  aggregated : ∀ (num : Any → Nat) (name : Nat → Any), (∀ e ∈ kept, name (num e) = e) →
    let st := aggregateDoc (C59.alnum S) fmt pa (kept.map (secOf num))
    back (elView (fixXref (C59.alnum S) fmt st.attrs.all st.refs)) name st.agg.tree = doc.elements ∧ C63.backRefs st.refs = doc.refs ∧ C63.tocField st.toc = doc.toc ∧ doc.footnotes = [] ∧
      insertPreamble (C63.tops st.agg.tree) = (C63.tops st.agg.tree).map .elem
  rendered : ∃ N, ∀ n, N ≤ n → render L n doc cfg = .ok html

/-- The stages before rendering, and what the elements are rendered to. -/
theorem stages_of {σ τ : Type} {env : Env} {S0 : Peg.Sem τ} {elem : τ → Option RawElem} {sects within0 : τ → Bool} (hE : C50.Reads env S0 elem sects within0)
    (files : Nat) {ctx : Verif.Ctx} (hroot : ctx.sectEnabled = false) {S : Peg.Sem σ} {A : Peg.Code σ} {len : σ → Nat} {within : σ → Bool} (hS : C59.Code S)
    (hP : C63.Place S within) (hI : C64.ListCode S) (hlen : C49.LenCode S len) (hA : Actions.Obeys A) {s : σ} (hs : within s = false) {D : Refine.Reader} (hD : C62.ReadsBlocks D (C59.alnum S))
    {letter number : Char → Bool} {W : Walk.World} (hG : C59.Grammatical W) (hW : Spoken letter number W) (c : Walk.Ctx) (fmt : Val → Text) {pa : CtxAttrs}
    (h1 : AMap.get pa.all "idprefix" = none) (h2 : AMap.get pa.all "idseparator" = none) {L : Lib} {R : Html.Rules} (hL : L.tmpl = Html.templatesOf R) {cfg : Config}
    {xs : List Item} (hg : Good (C59.alnum S) xs) (hu : ∀ l ∈ lines xs, C50.Untouched l) (hr : ∀ x ∈ xs, Woven.Item.Ready letter number reading x) {out : Text}
    (hout : ∀ es, C63.Body es → (∀ n pre, numberEls es false n pre = (false, [])) → (∀ u, ∃ N, ∀ n, N ≤ n → Writes (docOf (C59.alnum S) (AState.init pa).maxDepth xs).refs (renderAll (renderElement L n) es) u (Woven.page L.lower (C59.alnum S) u reading xs)) →
      ∃ N, ∀ n, N ≤ n → render L n ⟨es, (docOf (C59.alnum S) (AState.init pa).maxDepth xs).refs, [], C63.tocField (tocTree (C59.alnum S) (AState.init pa).maxDepth xs)⟩ cfg = .ok out) :
    Nonempty (Stages env files ctx S A s D W c fmt pa L cfg (source xs) out) := by
  obtain ⟨f, hf⟩ : ∃ f : Item → Any, ∀ x, x ∈ xs → ∀ l ls, x = .block (.para l ls) → ∃ es, Walk.substOne W c [] (C63.refined x) = .ok (f x, c) ∧ f x = .paragraph [] es ∧
      ∀ u, Draws u es (Inlined.html u (reading (Prose.text (l :: ls)))) := by
    refine Classical.skolem (p := fun x e => x ∈ xs → ∀ l ls, x = .block (.para l ls) → ∃ es, Walk.substOne W c [] (C63.refined x) = .ok (e, c) ∧ e = .paragraph [] es ∧
      ∀ u, Draws u es (Inlined.html u (reading (Prose.text (l :: ls))))).mp (fun x => ?_)
    by_cases hx : x ∈ xs
    · rcases other_or x with ho | ⟨l, ls, rfl⟩
      · exact ⟨.nil, fun _ l ls e => by subst e; exact ho.elim⟩
      · obtain ⟨es, he, hd⟩ := (substituted hG hW c (C63.good_mem hg _ hx) (hr _ hx)).2 l ls rfl
        refine ⟨.paragraph [] es, fun _ l' ls' e => ?_⟩
        cases e
        exact ⟨es, he, rfl, hd⟩
    · exact ⟨.nil, fun h => absurd h hx⟩
  have hturn : ∀ x ∈ xs, ∀ l ls, x = .block (.para l ls) → Turns reading f l ls := by
    rintro x hx l ls rfl
    obtain ⟨es, _, he, hd⟩ := hf _ hx l ls rfl
    exact ⟨es, he, hd⟩
  have hall : ∀ zs : List Item, (∀ x ∈ zs, x ∈ xs) → AllTurn reading f zs := fun zs hz l ls h => hturn _ (hz _ h) l ls rfl
  have hsub : ∀ x ∈ xs, Walk.substOne W c [] (C63.refined x) = .ok (mix f C63.content x, c) := by
    intro x hx
    rcases other_or x with ho | ⟨l, ls, rfl⟩
    · rw [mix_other ho]
      exact (substituted hG hW c (C63.good_mem hg _ hx) (hr _ hx)).1 ho
    · obtain ⟨es, he, _⟩ := hf _ hx l ls rfl
      exact he
  let zs := xs.filter seen
  have hz : ∀ x ∈ zs, x ∈ xs := fun x h => (List.mem_filter.mp h).1
  let fin := mix f C63.finalItem
  let ys := named (C59.alnum S) [] zs
  have hy : ∀ y ∈ ys, y.1 ∈ xs ∧ seen y.1 = true := fun y h => List.mem_filter.mp (C63.named_mem y h)
  let st : AState :=
    { attrs := pa, refs := (ys.filterMap refOf).reverse ++ [], agg := (ys.map (elemOf fin (fun _ => 0))).foldl Agg.append Agg.init,
      toc := (ys.filterMap tocOf).foldl (fun f t => tocAdd (AState.init pa).maxDepth t f) .nil, maxDepth := (AState.init pa).maxDepth }
  let fix := fixXref (C59.alnum S) fmt pa.all st.refs
  have hsimple : AllSimple (fun x => elView fix (fin x)) ys := fun y h hh => item_simple fix (hy y h).2 (hturn _ (hy y h).1) hh
  have hneat := C63.neat_shown hS hg
  have hal := C63.alnum_false hS
  have hshow : ∀ u, ∃ N, ∀ n, N ≤ n → Writes (docOf (C59.alnum S) (AState.init pa).maxDepth xs).refs (renderAll (renderElement L n) (tree (fun x => elView fix (fin x)) ys)) u
      (Woven.page L.lower (C59.alnum S) u reading xs) := by
    intro u
    rw [← page_showing]
    refine tree_shows hL _ ys (Nat.le_refl _) (fun y h => ⟨fun hd e => ⟨(hneat y h).2.1 hd e, (hneat y h).2.2.2⟩, fun hh => ?_⟩)
    exact item_writes (v := Woven.view L.lower (C59.alnum S) u xs) (fun c hc hr => sees (hal '_' (by decide)) (hal ' ' (by decide)) fmt h1 h2 hneat hc.unicode hr)
      hL (quotes_of hL) (C63.good_mem hg _ (hy y h).1) (hy y h).2 (hr _ (hy y h).1) (hturn _ (hy y h).1) hh
  refine ⟨⟨joinLF (lines xs), (C63.trimmed xs).map C63.element, (C63.trimmed xs).map C63.refined, (C63.trimmed xs).map (mix f C63.content), (C63.trimmed xs).map (mix f C63.placed), zs.map fin,
    ⟨tree (fun x => elView fix (fin x)) ys, C63.backRefs st.refs, [], C63.tocField st.toc⟩,
    C50.document_unchanged hE files ctx hroot (lines xs) hu, ?_, by simp, ?_, by simp, ?_, ?_, by simp, ?_, ?_, ?_,
    hout _ (tree_body _ _ ys (Nat.le_refl _) hsimple) (not_numbered _ _ ys (Nat.le_refl _) hsimple) hshow⟩⟩
  · rw [List.map_map]
    exact C63.sections_preprocessed hS hP hI hlen hA hg hs
  · intro p hm
    rw [List.zip_map', List.mem_map] at hm
    obtain ⟨x, hx, rfl⟩ := hm
    obtain ⟨N, hN⟩ := C63.refine_item hD (C63.good_mem hg x (C63.mem_trimmed hx))
    refine ⟨N, fun n hn => ?_⟩
    show (match Refine.refineAll (Refine.refine D n) [C63.element x] with
      | .done es => Refine.Out.done (Walk.Fragment.elements es)
      | .error => .done .error
      | .more => .more) = _
    rw [Refine.refineAll, hN n hn]
    rfl
  · intro p hm
    rw [List.zip_map', List.mem_map] at hm
    obtain ⟨x, hx, rfl⟩ := hm
    have := C62.single (hsub x (C63.mem_trimmed hx))
    show Walk.substFragment W c (.elements [C63.refined x]) = _
    simp only [Walk.substFragment, this]
  · intro num notes
    rw [List.map_map]
    exact no_footnotes num notes (C63.trimmed xs) (hall _ (fun x h => C63.mem_trimmed h))
  · intro num p hm
    rw [List.zip_map', List.mem_map] at hm
    obtain ⟨x, hx, rfl⟩ := hm
    exact placed num (C63.good_mem hg x (C63.mem_trimmed hx)) (hturn _ (C63.mem_trimmed hx))
  · intro num
    rw [filtered num (C63.trimmed xs) (fun x hx => C63.good_mem hg x (C63.mem_trimmed hx)) (hall _ (fun x h => C63.mem_trimmed h)), C63.trimmed_filter]
  · intro num name hname
    have hagg := aggregated (C63.alnum_false hS '_' (by decide)) (C63.alnum_false hS ' ' (by decide)) fmt fin num zs (AState.init pa) (kept_of (hall _ hz)) h1 h2
    have hag : aggregateDoc (C59.alnum S) fmt pa ((zs.map fin).map (secOf num)) =
        { st with agg := (ys.map (elemOf fin num)).foldl Agg.append Agg.init } := by
      unfold aggregateDoc
      rw [List.map_map]
      exact hagg
    rw [hag]
    have htree : ((ys.map (elemOf fin num)).foldl Agg.append Agg.init).tree = Nested.nest (ys.map (elemOf fin num)) := Nested.tree_nest _
    refine ⟨?_, rfl, rfl, rfl, ?_⟩
    · show back (elView fix) name ((ys.map (elemOf fin num)).foldl Agg.append Agg.init).tree = tree (fun x => elView fix (fin x)) ys
      rw [htree]
      refine back_tree (elView fix) fin num name _ ys (Nat.le_refl _) (fun y hm => ?_)
      exact hname _ (List.mem_map.mpr ⟨y.1, C63.named_mem _ hm, rfl⟩)
    · show insertPreamble (C63.tops ((ys.map (elemOf fin num)).foldl Agg.append Agg.init).tree) = (C63.tops ((ys.map (elemOf fin num)).foldl Agg.append Agg.init).tree).map .elem
      rw [htree]
      refine C63.no_preamble fun e he => ?_
      obtain ⟨⟨x, id⟩, _, rfl⟩ := List.mem_map.mp (C63.tops_nest _ _ (Nat.le_refl _) e he)
      cases x with
      | block b => exact .inr ⟨_, _, rfl⟩
      | list n ns => exact .inr ⟨_, _, rfl⟩
      | heading h => exact .inl ⟨_, rfl⟩

/-- **C69**: a document of sections, lists and delimited blocks, with inline markup in its paragraphs, from the text to the page: every section contains what
follows its title, up to the next title whose level is not greater, with an identifier made of its title; in the paragraphs, marks become HTML elements around
what they enclose, signs the characters they stand for, and references links to the sections, which show the titles; blocks and lists are shown as without markup. -/
theorem text_to_page {σ τ : Type} {env : Env} {S0 : Peg.Sem τ} {elem : τ → Option RawElem} {sects within0 : τ → Bool} (hE : C50.Reads env S0 elem sects within0)
    (files : Nat) {ctx : Verif.Ctx} (hroot : ctx.sectEnabled = false) {S : Peg.Sem σ} {A : Peg.Code σ} {len : σ → Nat} {within : σ → Bool} (hS : C59.Code S)
    (hP : C63.Place S within) (hI : C64.ListCode S) (hlen : C49.LenCode S len) (hA : Actions.Obeys A) {s : σ} (hs : within s = false) {D : Refine.Reader} (hD : C62.ReadsBlocks D (C59.alnum S))
    {letter number : Char → Bool} {W : Walk.World} (hG : C59.Grammatical W) (hW : Spoken letter number W) (c : Walk.Ctx) (fmt : Val → Text) {pa : CtxAttrs}
    (h1 : AMap.get pa.all "idprefix" = none) (h2 : AMap.get pa.all "idseparator" = none) {L : Lib} {R : Html.Rules} (hL : L.tmpl = Html.templatesOf R)
    {cfg : Config} (hcfg : C60.Article L cfg) (hT : AMap.get cfg.attrs "toc" = none)
    {xs : List Item} (hg : Good (C59.alnum S) xs) (hu : ∀ l ∈ lines xs, C50.Untouched l) (hr : ∀ x ∈ xs, Woven.Item.Ready letter number reading x) :
    Nonempty (Stages env files ctx S A s D W c fmt pa L cfg (source xs) (Woven.page L.lower (C59.alnum S) (getBoolD cfg.attrs "unicode" true) reading xs)) := by
  refine stages_of hE files hroot hS hP hI hlen hA hs hD hG hW c fmt h1 h2 hL hg hu hr (fun es hb hn hw => ?_)
  let refs := (docOf (C59.alnum S) (AState.init pa).maxDepth xs).refs
  obtain ⟨N, hN⟩ := hw (getBoolD cfg.attrs "unicode" true)
  have ht : AMap.get (defaultAttrs cfg) "toc" = none := by rw [C60.get_default cfg (by decide)]; exact hT
  refine ⟨N + 1, fun n hn' => ?_⟩
  obtain ⟨m, rfl⟩ := Nat.exists_eq_add_of_le' (show 1 ≤ n by omega)
  obtain ⟨toc', htoc'⟩ := C63.prerender (L := L) (toc := C63.tocField (tocTree (C59.alnum S) (AState.init pa).maxDepth xs)) m (c := C63.startCtx cfg refs) (C63.entries_doc _ _ _)
  exact C63.page_with hcfg hb hn htoc' (C63.place_unset ht _ _) (hN (m + 1) (by omega) _ (C63.start_fine hcfg refs) rfl rfl)

/-- **C69**, with a table of contents. -/
theorem outlined_to_page {σ τ : Type} {env : Env} {S0 : Peg.Sem τ} {elem : τ → Option RawElem} {sects within0 : τ → Bool} (hE : C50.Reads env S0 elem sects within0)
    (files : Nat) {ctx : Verif.Ctx} (hroot : ctx.sectEnabled = false) {S : Peg.Sem σ} {A : Peg.Code σ} {len : σ → Nat} {within : σ → Bool} (hS : C59.Code S)
    (hP : C63.Place S within) (hI : C64.ListCode S) (hlen : C49.LenCode S len) (hA : Actions.Obeys A) {s : σ} (hs : within s = false) {D : Refine.Reader} (hD : C62.ReadsBlocks D (C59.alnum S))
    {letter number : Char → Bool} {W : Walk.World} (hG : C59.Grammatical W) (hW : Spoken letter number W) (c : Walk.Ctx) (fmt : Val → Text) {pa : CtxAttrs}
    (h1 : AMap.get pa.all "idprefix" = none) (h2 : AMap.get pa.all "idseparator" = none) {depth : Int} (h3 : pa.getAsIntWithDefault "toclevels" 2 = depth)
    {L : Lib} {R : Html.Rules} (hL : L.tmpl = Html.templatesOf R)
    {cfg : Config} (hcfg : C60.Article L cfg) (hT : C68.Wanted cfg.attrs) (ht : AMap.get cfg.attrs "toc-title" = none ∨ ∃ t, AMap.get cfg.attrs "toc-title" = some (.str t))
    {xs : List Item} (hg : Good (C59.alnum S) xs) (hu : ∀ l ∈ lines xs, C50.Untouched l) (hr : ∀ x ∈ xs, Woven.Item.Ready letter number reading x)
    (hgap : Outlined.Gapless (Outlined.levels depth xs)) :
    Nonempty (Stages env files ctx S A s D W c fmt pa L cfg (source xs)
      (Woven.outlinedPage L.lower (C59.alnum S) (getBoolD cfg.attrs "unicode" true) (C68.tocName cfg.attrs) depth reading xs)) := by
  subst h3
  refine stages_of hE files hroot hS hP hI hlen hA hs hD hG hW c fmt h1 h2 hL hg hu hr (fun es hb hn hw => ?_)
  obtain ⟨N, hN⟩ := hw (getBoolD cfg.attrs "unicode" true)
  exact C68.rendered_with hS hL hcfg hT ht hg hgap hb hn rfl ⟨N, fun n hn' => hN n hn' _ (C63.start_fine hcfg _) rfl rfl⟩

end C69
end Verif
