import Verif.Props.HeaderStages

/-!
# C66 — Documents with a header, from the text to the page
-/
namespace Verif
namespace C66
open Headed
open Walk (Any)
open Sectioned (Item html)
open C63 (tree elemOf seen trimmed element)
open Rend hiding Item bind_ok Author expandRevision

/-! ### The parts of the document -/

theorem blank_before (x : Item) (h : seen x = false) : Headed.before x = true := by
  cases x with
  | block b => rfl
  | list n ns => rfl
  | heading hd => cases h

theorem takeWhile_all {α : Type} {p : α → Bool} : ∀ (l : List α), ∀ x ∈ l.takeWhile p, p x = true
  | [], _, h => nomatch h
  | y :: l, x, h => by
    rw [List.takeWhile_cons] at h
    cases hp : p y with
    | false => rw [hp] at h; cases h
    | true =>
      rw [hp] at h
      rcases List.mem_cons.mp h with rfl | h
      · exact hp
      · exact takeWhile_all l x h

theorem dropWhile_head {α : Type} {p : α → Bool} : ∀ (l : List α) {x : α} {r : List α}, l.dropWhile p = x :: r → p x = false
  | y :: l, x, r, h => by
    rw [List.dropWhile_cons] at h
    cases hp : p y with
    | false => rw [hp] at h; cases h; exact hp
    | true => rw [hp] at h; exact dropWhile_head l h

theorem named_sect (alnum : Char → Bool) (xs : List Item) : Sect (Sectioned.named alnum [] (xs.dropWhile Headed.before)) := by
  cases h : xs.dropWhile Headed.before with
  | nil => trivial
  | cons x r =>
    have := dropWhile_head xs h
    cases x with
    | block b => cases this
    | list n ns => cases this
    | heading hd => exact rfl

theorem seen_visible (x : Item) : seen x = visible x := by
  cases x with
  | block b => cases b <;> rfl
  | list n ns => rfl
  | heading hd => rfl

/-- What is on the page, in terms of what remains without blank lines. -/
theorem content_parts (lower : Text → Text) (alnum : Char → Bool) (u : Bool) (xs : List Item) :
    Headed.content lower alnum u xs =
      (if (xs.filter seen).takeWhile Headed.before ≠ [] ∧ (xs.filter seen).dropWhile Headed.before ≠ [] then
        "<div id=\"preamble\">\n<div class=\"sectionbody\">\n".toList ++ html lower u (Sectioned.named alnum [] ((xs.filter seen).takeWhile Headed.before)) ++ "</div>\n</div>\n".toList
      else html lower u (Sectioned.named alnum [] ((xs.filter seen).takeWhile Headed.before))) ++
      html lower u (Sectioned.named alnum [] ((xs.filter seen).dropWhile Headed.before)) := by
  unfold Headed.content
  dsimp only
  rw [C63.takeWhile_filter blank_before, C63.dropWhile_filter blank_before]
  have e1 := C63.page_filter lower alnum u (xs.takeWhile Headed.before)
  have e2 := C63.page_filter lower alnum u (xs.dropWhile Headed.before)
  unfold Sectioned.page at e1 e2
  rw [e1, e2]
  have hc : ((xs.takeWhile Headed.before).any visible && xs.any (fun x => !Headed.before x)) = true ↔
      (xs.takeWhile Headed.before).filter seen ≠ [] ∧ (xs.dropWhile Headed.before).filter seen ≠ [] := by
    rw [Bool.and_eq_true]
    refine and_congr ?_ ?_
    · rw [List.any_eq_true]
      constructor
      · rintro ⟨x, hx, hv⟩ hn
        have : x ∈ (xs.takeWhile Headed.before).filter seen := List.mem_filter.mpr ⟨hx, by rw [seen_visible]; exact hv⟩
        rw [hn] at this
        cases this
      · intro hn
        obtain ⟨x, hx⟩ := List.exists_mem_of_ne_nil _ hn
        obtain ⟨hx, hv⟩ := List.mem_filter.mp hx
        exact ⟨x, hx, by rw [← seen_visible]; exact hv⟩
    · rw [List.any_eq_true]
      constructor
      · rintro ⟨x, hx, hv⟩ hn
        rw [← List.takeWhile_append_dropWhile (p := Headed.before) (l := xs)] at hx
        cases hd : xs.dropWhile Headed.before with
        | nil =>
          rw [hd, List.append_nil] at hx
          rw [takeWhile_all _ x hx] at hv
          cases hv
        | cons y r =>
          have hy := dropWhile_head xs hd
          have hsn : seen y = true := by
            cases hq : seen y with
            | true => rfl
            | false => rw [blank_before y hq] at hy; cases hy
          rw [hd, List.filter_cons_of_pos hsn] at hn
          cases hn
      · intro hn
        cases hd : xs.dropWhile Headed.before with
        | nil => rw [hd] at hn; exact absurd rfl hn
        | cons y r =>
          refine ⟨y, ?_, by rw [dropWhile_head xs hd]; rfl⟩
          rw [← List.takeWhile_append_dropWhile (p := Headed.before) (l := xs), hd]
          exact List.mem_append_right _ List.mem_cons_self
  by_cases h : (xs.takeWhile Headed.before).filter seen ≠ [] ∧ (xs.dropWhile Headed.before).filter seen ≠ []
  · rw [if_pos h, if_pos (hc.mpr h)]; rfl
  · rw [if_neg h, if_neg (fun h' => h (hc.mp h'))]; rfl

/-! ### From the text to the page -/

/-- The stages of a conversion (libasciidoc.go:50-98, document_processing.go:16-46), as `C63.Stages`, of a document with a header: the header is the first
fragment; it is substituted first, in the context `c`, and the rest in the context `c'` that this leaves; after the aggregation the preamble is inserted. -/
structure Stages {σ : Type} (env : Env) (files : Nat) (ctx : Verif.Ctx) (S : Peg.Sem σ) (A : Peg.Code σ) (s : σ) (D : Refine.Reader) (W : Walk.World)
    (c : Walk.Ctx) (fmt : Val → Text) (pa : CtxAttrs) (L : Lib) (cfg : Config) (src : Text) (html : Text) where
  text : Text
  head : Any
  items : List Any
  refined : List Any
  contents : List Any
  placed : List Any
  kept : List Any
  doc : Doc
  preprocessed : preprocess env (files + 1) ctx src = .ok (text, ctx.offsets)
  parsed : ∃ depth rounds, FragmentLoop.loopV S A (fun _ => false) depth rounds s text = some ⟨[head] :: items.map (fun b => [b]), .endOfDocument, []⟩
  same : refined.length = items.length
  found : ∀ p ∈ (head, head) :: items.zip refined, ∃ N, ∀ n, N ≤ n → Refine.refineFragment D n (.elements [p.1]) = .done (.elements [p.2])
  same' : contents.length = refined.length
  substituted : ∃ c', Walk.substFragment W c (.elements [head]) = .ok (.elements [head], c') ∧
    ∀ p ∈ refined.zip contents, Walk.substFragment W c' (.elements [p.1]) = .ok (.elements [p.2], c')
  footnotes : ∀ num notes, Foot.collectAll notes ((head :: contents).map (fun e => [C62.footOf num e])) = (notes, (head :: contents).map (fun e => [C62.footOf num e]))
  same'' : placed.length = contents.length
  lists : ∀ num, ∀ p ∈ (head, head) :: contents.zip placed, Lists.arrangeEls [C62.listOf num p.1] = some [C62.arrangedOf num p.2]
  filtered : ∀ num, Filter.filterOut [filterHead num head] ++ placed.flatMap (fun e => Filter.filterOut [C62.filterOf num e]) = filterHead num head :: kept.map (C62.filterOf num)
  aggregated : ∀ (num : Any → Nat) (name : Nat → Any), (∀ e ∈ kept, name (num e) = e) →
    let st := aggregateDoc (C59.alnum S) fmt pa (secHead num head :: kept.map (C63.secOf num))
    rebuild name head (insertPreamble (C63.tops st.agg.tree)) st.agg.tree = doc.elements ∧ C63.backRefs st.refs = doc.refs ∧ C63.tocField st.toc = doc.toc ∧ doc.footnotes = []
  rendered : ∃ N, ∀ n, N ≤ n → render L n doc cfg = .ok html

/-- **C66**: a document with a header, from the text to the page. The title is shown at the top of the page, and is the title of the page; under it every author,
in order, with name and address, and the revision; the names of the authors are in the metadata. What comes before the first section is the preamble, if there are
sections; the rest is shown as without header. -/
theorem text_to_page {σ τ : Type} {env : Env} {S0 : Peg.Sem τ} {elem : τ → Option RawElem} {sects within0 : τ → Bool} (hE : C50.Reads env S0 elem sects within0)
    (files : Nat) {ctx : Verif.Ctx} (hroot : ctx.sectEnabled = false) {S : Peg.Sem σ} {A : Peg.Code σ} {len : σ → Nat} {within allowed : σ → Bool} (hS : C59.Code S)
    (hP : C63.Place S within) (hH : HeadCode S allowed within) (hI : C64.ListCode S) (hlen : C49.LenCode S len) (hA : Actions.Obeys A) {s : σ} (hs : within s = false) (ha : allowed s = true)
    {D : Refine.Reader} (hD : C62.ReadsBlocks D (C59.alnum S)) {W : Walk.World} (hW : C59.Grammatical W) (c : Walk.Ctx) (fmt : Val → Text) {pa : CtxAttrs}
    (h1 : AMap.get pa.all "idprefix" = none) (h2 : AMap.get pa.all "idseparator" = none) {L : Lib} {R : Html.Rules} (hL : L.tmpl = Html.templatesOf R) {cfg : Config} (hcfg : Plain L cfg)
    {d : Document} (hd : d.Ok (C59.alnum S)) (hu : ∀ l ∈ d.lines, C50.Untouched l) (hp : ∀ x ∈ d.body, x.Plain) :
    Nonempty (Stages env files ctx S A s D W c fmt pa L cfg d.source
      (if cfg.wrap then page L.lower (C59.alnum S) (settings L R cfg) d else content L.lower (C59.alnum S) (getBoolD cfg.attrs "unicode" true) d.body)) := by
  let xs := d.body
  have hg : Sectioned.Good (C59.alnum S) xs := hd.body
  let zs := xs.filter seen
  let pre := Sectioned.named (C59.alnum S) [] (zs.takeWhile Headed.before)
  let rest := Sectioned.named (C59.alnum S) [] (zs.dropWhile Headed.before)
  have hpre : ∀ y ∈ pre, front y = true := named_front (takeWhile_all zs)
  have hrest : Sect rest := named_sect _ zs
  have hys : Sectioned.named (C59.alnum S) [] zs = pre ++ rest := by
    rw [← named_append (C59.alnum S) [] _ _ (takeWhile_all zs), List.takeWhile_append_dropWhile]
  have hneat : C63.Neat (C59.alnum S) (pre ++ rest) := by
    rw [← hys]
    intro y hy
    have hm : y.1 ∈ zs := C63.named_mem y hy
    obtain ⟨hx, hsn⟩ := List.mem_filter.mp hm
    refine ⟨fun b e => ⟨?_, ?_⟩, fun h e => ?_, fun n ns e => ?_, C63.named_safe ?_ zs [] y hy⟩
    · have := C63.good_mem hg _ hx; rw [e] at this; exact this
    · rintro w rfl; rw [e] at hsn; cases hsn
    · have := C63.good_mem hg _ hx; rw [e] at this; exact this
    · have := C63.good_mem hg _ hx; rw [e] at this; exact this
    · intro d hd
      refine C63.alnum_false hS d ?_
      have : (['\x00', '"', '\'', '&', '<', '>'] : List Char).all (fun d => decide (d.toNat < 128) && !(d.isAlpha || d.isDigit)) = true := by decide
      exact List.all_eq_true.mp this d hd
  let toc := ((pre ++ rest).filterMap C63.tocOf).foldl (fun f t => tocAdd (AState.init pa).maxDepth t f) .nil
  let refs := ((pre ++ rest).filterMap C63.refOf).reverse ++ []
  obtain ⟨c', hc'⟩ := substituted_header W c [] d.head
  refine ⟨⟨joinLF d.lines, headEl d.head, (trimmed xs).map element, (trimmed xs).map C63.refined, (trimmed xs).map C63.content, (trimmed xs).map C63.placed, zs.map C63.finalItem,
    ⟨.docHeader [] (some [.str d.head.title]) (declEls d.head) :: ((if pre ≠ [] ∧ rest ≠ [] then [El.preamble (tree pre) none] else tree pre) ++ tree rest), C63.backRefs refs, [], C63.tocField toc⟩,
    C50.document_unchanged hE files ctx hroot d.lines hu, ?_, by simp, ?_, by simp, ⟨c', ?_, ?_⟩, ?_, by simp, ?_, ?_, ?_, ?_⟩⟩
  · rw [List.map_map]
    exact headed_preprocessed hS hP hH hI hlen hA hd hs ha
  · intro p hm
    rcases List.mem_cons.mp hm with rfl | hm
    · exact ⟨1, fun n hn => by obtain ⟨m, rfl⟩ := Nat.exists_eq_add_of_le' hn; rfl⟩
    rw [List.zip_map', List.mem_map] at hm
    obtain ⟨x, hx, rfl⟩ := hm
    obtain ⟨N, hN⟩ := C63.refine_item hD (C63.good_mem hg x (C63.mem_trimmed hx))
    refine ⟨N, fun n hn => ?_⟩
    show (match Refine.refineAll (Refine.refine D n) [element x] with
      | .done es => Refine.Out.done (Walk.Fragment.elements es)
      | .error => .done .error
      | .more => .more) = _
    rw [Refine.refineAll, hN n hn]
    rfl
  · have : Walk.substAll W c [] [headEl d.head] = .ok ([headEl d.head], c') := by
      rw [Walk.substAll, hc']
      rfl
    simp only [Walk.substFragment, this]
  · intro p hm
    rw [List.zip_map', List.mem_map] at hm
    obtain ⟨x, hx, rfl⟩ := hm
    have := C62.single (C63.substituted_item hW c' [] (C63.good_mem hg x (C63.mem_trimmed hx)) (hp x (C63.mem_trimmed hx)))
    show Walk.substFragment W c' (.elements [C63.refined x]) = _
    simp only [Walk.substFragment, this]
  · intro num notes
    rw [List.map_cons, List.map_map]
    show ((Foot.collectAll notes _).1, _ :: (Foot.collectAll notes _).2) = _
    have := C63.no_footnotes num notes (trimmed xs)
    rw [show ((fun e => [C62.footOf num e]) ∘ C63.content) = fun x => [C62.footOf num (C63.content x)] from rfl, this]
    rfl
  · intro num p hm
    rcases List.mem_cons.mp hm with rfl | hm
    · rfl
    rw [List.zip_map', List.mem_map] at hm
    obtain ⟨x, hx, rfl⟩ := hm
    exact C63.placed_item num (C63.good_mem hg x (C63.mem_trimmed hx))
  · intro num
    rw [header_filtered, C63.filter_document num (trimmed xs) (fun x hx => C63.good_mem hg x (C63.mem_trimmed hx)), C63.trimmed_filter]
    rfl
  · intro num name hname
    obtain ⟨pa', hst, hun⟩ := head_state num d.head (AState.init pa)
    have hagg := C63.aggregated (C63.alnum_false hS '_' (by decide)) (C63.alnum_false hS ' ' (by decide)) fmt num zs
      { AState.init pa with attrs := pa', agg := Agg.init.append (.header true ((decls d.head).map (helem num))) } (hun _ (by decide) h1) (hun _ (by decide) h2)
    have hag : aggregateDoc (C59.alnum S) fmt pa (secHead num (headEl d.head) :: (zs.map C63.finalItem).map (C63.secOf num)) =
        { attrs := pa', refs := refs, agg := ((Elem.header true ((decls d.head).map (helem num))) :: (pre ++ rest).map (elemOf num)).foldl Agg.append Agg.init, toc := toc, maxDepth := (AState.init pa).maxDepth } := by
      unfold aggregateDoc
      rw [List.foldl_cons, List.map_map]
      have hstep : aggStep (C59.alnum S) fmt (AState.init pa) (secHead num (headEl d.head)) =
          { AState.init pa with attrs := pa', agg := Agg.init.append (.header true ((decls d.head).map (helem num))) } := by
        show ({ ((decls d.head).map (helem num)).foldl AState.headerElem (AState.init pa) with agg := _ } : AState) = _
        rw [hst]
        rfl
      rw [hstep]
      refine Eq.trans hagg ?_
      show AState.mk _ _ _ _ _ = _
      rw [show Sectioned.named (C59.alnum S) (List.map Prod.fst (AState.init pa).refs) zs = pre ++ rest from hys]
      rfl
    rw [hag]
    refine ⟨?_, rfl, rfl, rfl⟩
    dsimp only
    have htree : ((Elem.header true ((decls d.head).map (helem num)) :: (pre ++ rest).map (elemOf num)).foldl Agg.append Agg.init).tree =
      Nested.nest (Elem.header true ((decls d.head).map (helem num)) :: (pre ++ rest).map (elemOf num)) := Nested.tree_nest _
    rw [htree, rebuilt num name (headEl d.head) _ hpre hrest, head_out]
    · rfl
    · intro y hy
      rw [← hys] at hy
      exact hname _ (List.mem_map.mpr ⟨y.1, C63.named_mem _ hy, rfl⟩)
  · obtain ⟨N1, hN1⟩ := C63.tree_shows (u := getBoolD cfg.attrs "unicode" true) hL pre.length pre (Nat.le_refl _) (fun y hy => hneat y (List.mem_append_left _ hy))
    obtain ⟨N2, hN2⟩ := C63.tree_shows (u := getBoolD cfg.attrs "unicode" true) hL rest.length rest (Nat.le_refl _) (fun y hy => hneat y (List.mem_append_right _ hy))
    obtain ⟨N, hN⟩ := C63.tree_shows (u := getBoolD cfg.attrs "unicode" true) hL (pre ++ rest).length (pre ++ rest) (Nat.le_refl _) hneat
    have hcont := content_parts L.lower (C59.alnum S) (getBoolD cfg.attrs "unicode" true) d.body
    have hpn : pre ≠ [] ↔ zs.takeWhile Headed.before ≠ [] := by
      rw [← List.length_pos_iff, ← List.length_pos_iff, named_length]
    have hrn : rest ≠ [] ↔ zs.dropWhile Headed.before ≠ [] := by
      rw [← List.length_pos_iff, ← List.length_pos_iff, named_length]
    refine ⟨N + N1 + N2 + 2, fun n hn => ?_⟩
    obtain ⟨m, rfl⟩ := Nat.exists_eq_add_of_le' (show 2 ≤ n by omega)
    refine page_of hL hcfg hd.head ?_ ?_ (n := m + 1) ?_
    · have hnn := C63.not_numbered _ (pre ++ rest) (Nat.le_refl _) 0 []
      by_cases hw : pre ≠ [] ∧ rest ≠ []
      · rw [if_pos hw]
        show ((numberEls (tree rest) false 0 []).1, (numberEls (tree rest) false 0 []).2 ++ []) = _
        rw [C63.not_numbered _ rest (Nat.le_refl _)]
        rfl
      · rw [if_neg hw, ← tree_append _ _ hpre]
        exact hnn
    · intro l hl
      have hl' : ∀ tc, C63.tocField tc = some (some l) → l = C63.backToc tc := by
        intro tc h
        unfold C63.tocField at h
        split at h
        · cases h
        · cases h; rfl
      rw [hl' _ hl]
      refine C63.entries_of _ fun t ht => ?_
      rcases C63.flatten_toc _ _ _ t ht with ht | ht
      · have hm := C63.toc_recorded (pre ++ rest) t ht
        have := C63.lookup_refs ((pre ++ rest).filterMap C63.refOf).reverse (C63.refs_shape (pre ++ rest)) t.id hm
        rw [← List.append_nil ((pre ++ rest).filterMap C63.refOf).reverse] at this
        exact this
      · cases ht
    · rw [hcont]
      by_cases hw : pre ≠ [] ∧ rest ≠ []
      · rw [if_pos hw, if_pos ⟨hpn.mp hw.1, hrn.mp hw.2⟩]
        exact preamble_shows hL (hN1 (m + 1) (by omega)) (hN2 (m + 2) (by omega))
      · rw [if_neg hw, if_neg (fun h => hw ⟨hpn.mpr h.1, hrn.mpr h.2⟩), ← tree_append _ _ hpre, ← html_append _ _ _ _ hpre]
        exact WritesH.of (hN (m + 2) (by omega))

end C66
end Verif
