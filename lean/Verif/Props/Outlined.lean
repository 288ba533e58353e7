import Verif.Props.Outline

/-!
# C68 — Documents with a table of contents, from the text to the page
-/
namespace Verif
namespace C68
open Sectioned (Heading Item named free anchor Good lines source)
open Outlined
open Rend hiding Item bind_ok
open C62 (Fine bind_ok)
open C63 (shown seen tocTree docOf)
open Prose (char)

/-! ### Identifiers -/

theorem free_fresh (used : List Text) (base : Text) : free used base ∉ used := by
  have h := C14.terminates (used.map (fun id => (id, .block 0))) base
  obtain ⟨id, h⟩ := h
  have h := h _ (Nat.le_refl _)
  rw [C63.loop_find _ _ _ 0] at h
  have he : (used.map (fun id => ((id, .block 0) : Text × RefTitle))).map Prod.fst = used := by
    rw [List.map_map]; exact List.map_id _
  rw [he, List.length_map, ← List.range_eq_range'] at h
  unfold free
  rw [h]
  have := List.find?_some h
  intro hm
  rw [List.contains_iff_mem.mpr (show id ∈ used from hm)] at this
  cases this

/-- The sections, with their identifiers. -/
def titles (ys : List (Item × Text)) : List (Heading × Text) := ys.filterMap titleOf

theorem titles_named (alnum : Char → Bool) : ∀ (xs : List Item) (used : List Text), ∀ x ∈ titles (named alnum used xs), x.2 ∉ used
  | [], _, _, h => nomatch h
  | .block _ :: xs, used, x, h => titles_named alnum xs used x h
  | .list _ _ :: xs, used, x, h => titles_named alnum xs used x h
  | .heading hd :: xs, used, x, h => by
    rcases List.mem_cons.mp (show x ∈ (hd, free used (anchor alnum hd.title)) :: titles (named alnum (free used (anchor alnum hd.title) :: used) xs) from h) with rfl | h
    · exact free_fresh _ _
    · exact fun hm => titles_named alnum xs _ x h (List.mem_cons_of_mem _ hm)

theorem titles_ok {alnum : Char → Bool} {ys : List (Item × Text)} (h : C63.Neat alnum ys) : ∀ x ∈ titles ys, x.1.Ok := by
  intro x hx
  obtain ⟨⟨y, id⟩, hy, he⟩ := List.mem_filterMap.mp hx
  cases y with
  | block b => cases he
  | list n ns => cases he
  | heading hd => cases he; exact (h _ hy).2.1 hd rfl

theorem lookup_append_left {α : Type} {k : Text} {v : α} : ∀ {l : List (Text × α)} (r : List (Text × α)), l.lookup k = some v → (l ++ r).lookup k = some v
  | [], _, h => by cases h
  | (k', v') :: l, r, h => by
    rw [List.cons_append, List.lookup_cons] at *
    cases hk : (k == k') with
    | true => rw [hk] at h; exact h
    | false => rw [hk] at h; exact lookup_append_left r h

theorem lookup_append_right {α : Type} {k : Text} : ∀ {l : List (Text × α)} (r : List (Text × α)), k ∉ l.map Prod.fst → (l ++ r).lookup k = r.lookup k
  | [], _, _ => rfl
  | (k', v') :: l, r, h => by
    rw [List.cons_append, List.lookup_cons]
    cases hk : (k == k') with
    | true => exact absurd (by rw [eq_of_beq hk]; exact List.mem_cons_self) h
    | false => exact lookup_append_right r (fun hm => h (List.mem_cons_of_mem _ hm))

theorem backRefs_append : ∀ (a b : Refs), C63.backRefs (a ++ b) = C63.backRefs a ++ C63.backRefs b
  | [], _ => rfl
  | (_, .sect _) :: a, b => congrArg (List.cons _) (backRefs_append a b)
  | (_, .block _) :: a, b => congrArg (List.cons _) (backRefs_append a b)

theorem backRefs_keys : ∀ (a : Refs), (C63.backRefs a).map Prod.fst = a.map Prod.fst
  | [] => rfl
  | (_, .sect _) :: a => congrArg (List.cons _) (backRefs_keys a)
  | (_, .block _) :: a => congrArg (List.cons _) (backRefs_keys a)

theorem keys_titles (ys : List (Item × Text)) : (ys.filterMap C63.refOf).map Prod.fst = (titles ys).map Prod.snd := by
  induction ys with
  | nil => rfl
  | cons y ys ih =>
    obtain ⟨x, id⟩ := y
    cases x with
    | block b => exact ih
    | list n ns => exact ih
    | heading h => exact congrArg (List.cons id) ih

/-- Every section is recorded with its title. -/
theorem recorded (alnum : Char → Bool) : ∀ (xs : List Item) (used : List Text), ∀ x ∈ titles (named alnum used xs),
    (C63.backRefs ((named alnum used xs).filterMap C63.refOf).reverse).lookup x.2 = some (.els [.str x.1.title])
  | [], _, _, h => nomatch h
  | .block _ :: xs, used, x, h => recorded alnum xs used x h
  | .list _ _ :: xs, used, x, h => recorded alnum xs used x h
  | .heading hd :: xs, used, x, h => by
    have e : (named alnum used (.heading hd :: xs)).filterMap C63.refOf =
      (free used (anchor alnum hd.title), .sect [.str hd.title]) :: (named alnum (free used (anchor alnum hd.title) :: used) xs).filterMap C63.refOf := rfl
    rw [e, List.reverse_cons, backRefs_append]
    rcases List.mem_cons.mp (show x ∈ (hd, free used (anchor alnum hd.title)) :: titles (named alnum (free used (anchor alnum hd.title) :: used) xs) from h) with rfl | h
    · rw [lookup_append_right]
      · show List.lookup _ [(free used (anchor alnum hd.title), AV.els [.str hd.title])] = _
        rw [List.lookup_cons, beq_self_eq_true]
      · rw [backRefs_keys, List.map_reverse, List.mem_reverse, keys_titles]
        intro hm
        obtain ⟨y, hy, e⟩ := List.mem_map.mp hm
        exact titles_named alnum xs _ y hy (by rw [e]; exact List.mem_cons_self)
    · exact lookup_append_left _ (recorded alnum xs _ x h)

/-! ### What is listed -/

theorem tocs_titles (ys : List (Item × Text)) : ys.filterMap C63.tocOf = (titles ys).map mark := by
  induction ys with
  | nil => rfl
  | cons y ys ih =>
    obtain ⟨x, id⟩ := y
    cases x with
    | block b => exact ih
    | list n ns => exact ih
    | heading h => exact congrArg (List.cons _) ih

theorem titles_filter (alnum : Char → Bool) : ∀ (xs : List Item) (used : List Text), titles (named alnum used (xs.filter seen)) = titles (named alnum used xs)
  | [], _ => rfl
  | .block b :: xs, used => by
    have ih := titles_filter alnum xs used
    cases hb : seen (.block b) with
    | true => rw [List.filter_cons_of_pos hb]; exact ih
    | false => rw [List.filter_cons_of_neg (by rw [hb]; decide)]; exact ih
  | .list n ns :: xs, used => by
    have ih := titles_filter alnum xs used
    cases hb : seen (.list n ns) with
    | true => rw [List.filter_cons_of_pos hb]; exact ih
    | false => rw [List.filter_cons_of_neg (by rw [hb]; decide)]; exact ih
  | .heading hd :: xs, used => by
    have ih := titles_filter alnum xs (free used (anchor alnum hd.title) :: used)
    rw [List.filter_cons_of_pos rfl]
    exact congrArg (List.cons _) ih

theorem levels_titles (alnum : Char → Bool) (depth : Int) : ∀ (xs : List Item) (used : List Text), (listed depth (named alnum used xs)).map lvl = levels depth xs := by
  have h : ∀ (xs : List Item) (used : List Text), (titles (named alnum used xs)).map lvl = xs.filterMap levelOf := by
    intro xs
    induction xs with
    | nil => intro _; rfl
    | cons x xs ih =>
      intro used
      cases x with
      | block b => exact ih used
      | list n ns => exact ih used
      | heading hd => exact congrArg (List.cons _) (ih _)
  intro xs used
  unfold levels
  rw [← h xs used, List.filter_map]
  rfl

/-! ### From the text to the page -/

/-- The table of contents is wanted, at its usual place. -/
def Wanted (a : Attrs) : Prop := AMap.get a "toc" = some (.str []) ∨ AMap.get a "toc" = some .nil

theorem place_first {a : Attrs} (h : Wanted a) (l : List Rend.Toc) (es : List El) : placeToc a (some (some l)) es = .ok (.toc (some l) :: es) := by
  unfold placeToc
  rcases h with h | h <;> rw [h] <;> rfl

theorem place_nothing {a : Attrs} (h : Wanted a) (es : List El) : placeToc a none es = .ok es := by
  unfold placeToc
  rcases h with h | h <;> rw [h]

/-- The page with a table of contents, given what is made of the elements of the document. -/
theorem rendered_with {σ : Type} {S : Peg.Sem σ} (hS : C59.Code S) {L : Lib} {R : Html.Rules} (hL : L.tmpl = Html.templatesOf R) {cfg : Config} (hcfg : C60.Article L cfg)
    (hT : Wanted cfg.attrs) (ht : AMap.get cfg.attrs "toc-title" = none ∨ ∃ t, AMap.get cfg.attrs "toc-title" = some (.str t)) {depth : Int}
    {xs : List Item} (hg : Good (C59.alnum S) xs) (hgap : Gapless (levels depth xs)) {es : List El} (hbody : C63.Body es) (hnn : ∀ n pre, numberEls es false n pre = (false, []))
    {refs : List (Text × AV)} (hrefs : refs = (docOf (C59.alnum S) depth xs).refs) {out : Text}
    (hN : ∃ N, ∀ n, N ≤ n → ∃ k, renderAll (renderElement L n) es (C63.startCtx cfg refs) = .ok (out, { C63.startCtx cfg refs with counters := k })) :
    ∃ N, ∀ n, N ≤ n → render L n ⟨es, refs, [], C63.tocField (tocTree (C59.alnum S) depth xs)⟩ cfg =
      .ok (table L.lower (getBoolD cfg.attrs "unicode" true) (tocName cfg.attrs) (listed depth (named (C59.alnum S) [] xs)) ++ out) := by
  subst hrefs
  have hneat := C63.neat_shown hS hg
  obtain ⟨N, hN⟩ := hN
  refine ⟨N + 1, fun n hn => ?_⟩
  obtain ⟨m, rfl⟩ := Nat.exists_eq_add_of_le' (show 1 ≤ n by omega)
  have hlist : listed depth (named (C59.alnum S) [] xs) = (titles (shown (C59.alnum S) xs)).filter (fun x => decide ((x.1.level : Int) ≤ depth)) := by
    rw [show titles (shown (C59.alnum S) xs) = titles (named (C59.alnum S) [] xs) from titles_filter _ xs []]
    rfl
  have hlev := levels_titles (C59.alnum S) depth xs []
  have htree : tocTree (C59.alnum S) depth xs = grown (listed depth (named (C59.alnum S) [] xs)) := by
    unfold tocTree
    rw [tocs_titles, hlist]
    have := fold_grown (m := depth) (titles (shown (C59.alnum S) xs)) []
    rw [List.nil_append, ← hlist, hlev] at this
    have := this hgap
    rw [grown] at this
    rw [← hlist]
    exact this
  have hW' : Wanted (defaultAttrs cfg) := by
    unfold Wanted at hT ⊢
    rw [C60.get_default cfg (by decide)]
    exact hT
  have ht' : AMap.get (defaultAttrs cfg) "toc-title" = AMap.get cfg.attrs "toc-title" := C60.get_default cfg (by decide)
  have hname : tocName (defaultAttrs cfg) = tocName cfg.attrs := by unfold tocName; rw [ht']
  have hok : ∀ x ∈ listed depth (named (C59.alnum S) [] xs), x.1.Ok ∧ (docOf (C59.alnum S) depth xs).refs.lookup x.2 = some (.els [.str x.1.title]) := by
    intro x hx
    rw [hlist] at hx
    have hx := (List.mem_filter.mp hx).1
    refine ⟨titles_ok hneat x hx, ?_⟩
    have := recorded (C59.alnum S) (xs.filter seen) [] x hx
    show (C63.backRefs (_ ++ [])).lookup _ = _
    rw [List.append_nil]
    exact this
  have hst : Steps ((listed depth (named (C59.alnum S) [] xs)).map lvl) := by rw [hlev]; exact hgap.2
  obtain ⟨k, hk⟩ := hN (m + 1) (by omega)
  rw [htree]
  generalize listed depth (named (C59.alnum S) [] xs) = ls at *
  cases ls with
  | nil =>
    rw [grown]
    exact C63.page_with hcfg hbody hnn (toc' := none) rfl (place_nothing hW' _) ⟨k, hk⟩
  | cons x ls =>
    have hpre := prerender (L := L) m (C63.start_fine hcfg (docOf (C59.alnum S) depth xs).refs) rfl _ (x :: ls) (Nat.le_refl _) hok
    refine C63.page_with hcfg hbody hnn (toc' := some (some (titled (getBoolD cfg.attrs "unicode" true) (x :: ls)))) ?_ (place_first hW' _ _) ?_
    · rw [grown] at hpre ⊢
      exact (bind_ok hpre).trans rfl
    · have htab := table_shows (L := L) (u := getBoolD cfg.attrs "unicode" true) hL (renderElement L m) (c := C63.startCtx cfg (docOf (C59.alnum S) depth xs).refs)
        (by show AMap.get (defaultAttrs cfg) "toc-title" = none ∨ ∃ t, AMap.get (defaultAttrs cfg) "toc-title" = some (.str t); rw [ht']; exact ht) hst
      rw [show (C63.startCtx cfg (docOf (C59.alnum S) depth xs).refs).attrs = defaultAttrs cfg from rfl, hname] at htab
      refine ⟨k, (bind_ok (show renderElement L (m + 1) (.toc (some (titled _ (x :: ls)))) _ = _ from htab)).trans ((bind_ok hk).trans rfl)⟩

theorem rendered {σ : Type} {S : Peg.Sem σ} (hS : C59.Code S) {L : Lib} {R : Html.Rules} (hL : L.tmpl = Html.templatesOf R) {cfg : Config} (hcfg : C60.Article L cfg)
    (hT : Wanted cfg.attrs) (ht : AMap.get cfg.attrs "toc-title" = none ∨ ∃ t, AMap.get cfg.attrs "toc-title" = some (.str t)) {depth : Int}
    {xs : List Item} (hg : Good (C59.alnum S) xs) (hgap : Gapless (levels depth xs)) :
    ∃ N, ∀ n, N ≤ n → render L n (docOf (C59.alnum S) depth xs) cfg = .ok (page L.lower (C59.alnum S) (getBoolD cfg.attrs "unicode" true) (tocName cfg.attrs) depth xs) := by
  have hneat := C63.neat_shown hS hg
  obtain ⟨N, hN⟩ := C63.tree_shows (u := getBoolD cfg.attrs "unicode" true) hL _ (shown (C59.alnum S) xs) (Nat.le_refl _) hneat
  refine rendered_with hS hL hcfg hT ht hg hgap (C63.tree_body _ hneat _ (Nat.le_refl _)) (C63.not_numbered _ (shown (C59.alnum S) xs) (Nat.le_refl _)) rfl ⟨N, fun n hn => ?_⟩
  have hk := hN n hn (C63.startCtx cfg (docOf (C59.alnum S) depth xs).refs) (C63.start_fine hcfg _) rfl
  rwa [show Sectioned.html L.lower (getBoolD cfg.attrs "unicode" true) (shown (C59.alnum S) xs) = Sectioned.page L.lower (C59.alnum S) (getBoolD cfg.attrs "unicode" true) xs from
    C63.page_filter _ _ _ xs] at hk

/-- **C68**: a document of sections, paragraphs, lists and delimited blocks without markup, with a table of contents, from the text to the page: before the
document, the sections whose level is not greater than the depth are listed, in their order, each with a link to its identifier and below the nearest section
before it that has a smaller level. -/
theorem text_to_page {σ τ : Type} {env : Env} {S0 : Peg.Sem τ} {elem : τ → Option RawElem} {sects within0 : τ → Bool} (hE : C50.Reads env S0 elem sects within0)
    (files : Nat) {ctx : Verif.Ctx} (hroot : ctx.sectEnabled = false) {S : Peg.Sem σ} {A : Peg.Code σ} {len : σ → Nat} {within : σ → Bool} (hS : C59.Code S)
    (hP : C63.Place S within) (hI : C64.ListCode S) (hlen : C49.LenCode S len) (hA : Actions.Obeys A) {s : σ} (hs : within s = false) {D : Refine.Reader} (hD : C62.ReadsBlocks D (C59.alnum S))
    {W : Walk.World} (hW : C59.Grammatical W) (c : Walk.Ctx) (fmt : Val → Text) {pa : CtxAttrs} (h1 : AMap.get pa.all "idprefix" = none)
    (h2 : AMap.get pa.all "idseparator" = none) {depth : Int} (h3 : pa.getAsIntWithDefault "toclevels" 2 = depth) {L : Lib} {R : Html.Rules} (hL : L.tmpl = Html.templatesOf R)
    {cfg : Config} (hcfg : C60.Article L cfg) (hT : Wanted cfg.attrs) (ht : AMap.get cfg.attrs "toc-title" = none ∨ ∃ t, AMap.get cfg.attrs "toc-title" = some (.str t))
    {xs : List Item} (hg : Good (C59.alnum S) xs) (hu : ∀ l ∈ lines xs, C50.Untouched l) (hp : ∀ x ∈ xs, x.Plain) (hgap : Gapless (levels depth xs)) :
    Nonempty (C63.Stages env files ctx S A s D W c fmt pa L cfg (source xs)
      (page L.lower (C59.alnum S) (getBoolD cfg.attrs "unicode" true) (tocName cfg.attrs) depth xs)) := by
  subst h3
  exact C63.stages_of hE files hroot hS hP hI hlen hA hs hD hW c fmt h1 h2 hg hu hp (rendered hS hL hcfg hT ht hg hgap)

end C68
end Verif
