import Verif.Props.HeaderKeys

/-!
# C66, continued — Headers in pages
-/
namespace Verif
namespace C66
open Headed
open Rend hiding Item bind_ok Author expandRevision

section
variable {L : Lib} {R : Html.Rules}

theorem exec_ok {f : Tmpl.Templates → Tmpl.Tm} {env : Tmpl.Env} {x : Text} {c : Rend.Ctx} (h : (f L.tmpl).render L.lower env = some x) : exec L f env c = .ok (x, c) := by
  unfold exec
  rw [h]
  rfl

theorem name_ne {a : Author} (h : a.first ≠ []) : a.name ≠ [] := by
  unfold Headed.Author.name shown
  cases hf : a.first with
  | nil => exact absurd hf h
  | cons c t => exact fun h => nomatch h

/-! ### Authors -/

theorem author_tmpl (hL : L.tmpl = Html.templatesOf R) (i : Nat) {a : Author} (ha : a.first ≠ []) :
    L.tmpl.documentAuthorDetails.render L.lower [("Index", .str (index i)), ("Name", .str a.name), ("Email", .str a.email)] = some (a.html R.xml i) := by
  have hn := name_ne ha
  rw [hL]
  unfold Html.templatesOf
  generalize hx : R.xml = x
  cases x
  · rw [if_neg (by decide)]
    show Tmpl.Html5.documentAuthorDetailsTmpl.render L.lower _ = _
    unfold Author.html
    by_cases hm : a.email = [] <;>
      simp [Tmpl.Html5.documentAuthorDetailsTmpl, Tmpl.Tm.render, Tmpl.Cond.eval, AMap.get, Tmpl.Val.truth, Tmpl.Val.shown, Tmpl.Fn.call, hm, hn, close]
  · rw [if_pos rfl]
    show Tmpl.Xhtml5.documentAuthorDetailsTmpl.render L.lower _ = _
    unfold Author.html
    by_cases hm : a.email = [] <;>
      simp [Tmpl.Xhtml5.documentAuthorDetailsTmpl, Tmpl.Tm.render, Tmpl.Cond.eval, AMap.get, Tmpl.Val.truth, Tmpl.Val.shown, Tmpl.Fn.call, hm, hn, close]

/-- The authors from the `i`-th on. -/
def authorLines (xhtml : Bool) : Nat → List Author → Text
  | _, [] => []
  | i, a :: as => (if i + 1 > 1 then "\n".toList else []) ++ a.html xhtml i ++ authorLines xhtml (i + 1) as

theorem key_of (k : String) (i : Nat) : (if i + 1 = 1 then k else k ++ "_" ++ (if i + 1 = 1 then "" else toString (i + 1))) = Rend.authorKey k i := by
  unfold Rend.authorKey
  by_cases h : i = 0
  · rw [if_pos h, if_pos (by omega)]
  · rw [if_neg h, if_neg (by omega), if_neg (by omega)]

theorem index_of (i : Nat) : (if i + 1 = 1 then "" else toString (i + 1)).toList = index i := by
  unfold index
  by_cases h : i = 0
  · rw [if_pos h, if_pos (by omega)]; rfl
  · rw [if_neg h, if_neg (by omega)]

theorem details_from (hL : L.tmpl = Html.templatesOf R) (doc : Rend.Attrs) (c : Rend.Ctx) : ∀ (as : List Author) (i fuel : Nat), as.length < fuel → (∀ a ∈ as, a.first ≠ []) →
    (∀ j, AMap.get doc (Rend.authorKey "author" (i + j)) = (as[j]?).map (fun a => AV.str a.name)) →
    (∀ j, AMap.get doc (Rend.authorKey "email" (i + j)) = (as[j]?).bind (fun a => present a.email)) →
    authorDetails L doc fuel (i + 1) c = .ok (authorLines R.xml i as, c)
  | as, i, 0, hf, _, _, _ => by omega
  | as, i, fuel + 1, hf, ha, h1, h2 => by
    have hk1 := key_of "author" i
    have hk2 := key_of "email" i
    have g1 := h1 0
    have g2 := h2 0
    rw [Nat.add_zero] at g1 g2
    rw [show "author" ++ "_" = "author_" by decide] at hk1
    rw [show "email" ++ "_" = "email_" by decide] at hk2
    unfold authorDetails
    dsimp only
    rw [hk1, hk2, index_of]
    unfold getStr
    rw [g1, g2]
    cases as with
    | nil => rfl
    | cons a as =>
      have ih := details_from hL doc c as (i + 1) fuel (by simpa using hf) (fun b hb => ha b (List.mem_cons_of_mem _ hb))
        (fun j => by have := h1 (j + 1); rw [List.getElem?_cons_succ] at this; rw [show i + 1 + j = i + (j + 1) by omega]; exact this)
        (fun j => by have := h2 (j + 1); rw [List.getElem?_cons_succ] at this; rw [show i + 1 + j = i + (j + 1) by omega]; exact this)
      have hm : (match (present a.email : Option AV) with | some (.str t) => some t | _ => none).getD [] = a.email := by
        unfold present
        split <;> simp_all
      show (M.bind (exec L (·.documentAuthorDetails) [("Index", .str (index i)), ("Name", .str a.name), ("Email", .str ((match (present a.email : Option AV) with
        | some (.str t) => some t | _ => none).getD []))]) _) c = _
      rw [hm]
      refine (C62.bind_ok (exec_ok (author_tmpl hL i (ha a List.mem_cons_self)))).trans ?_
      exact (C62.bind_ok ih).trans rfl

theorem authorLines_rest (xhtml : Bool) : ∀ (as : List Author) (i : Nat) (x : Text), x ++ authorLines xhtml (i + 1) as =
    "\n".toList.intercalate (x :: as.mapIdx (fun j => Author.html xhtml (j + (i + 1))))
  | [], i, x => by simp [authorLines, List.intercalate]
  | a :: as, i, x => by
    have ih := authorLines_rest xhtml as (i + 1) (a.html xhtml (i + 1))
    rw [authorLines, if_pos (by omega), List.mapIdx_cons, List.append_assoc, ih]
    simp [List.intercalate, Nat.add_assoc, Nat.add_comm 1]

theorem authorLines_eq (xhtml : Bool) : ∀ (as : List Author), authorLines xhtml 0 as = "\n".toList.intercalate (as.mapIdx (Author.html xhtml))
  | [] => rfl
  | a :: as => by
    rw [authorLines, if_neg (by omega), List.nil_append, authorLines_rest]
    rw [List.mapIdx_cons]

/-! ### The details -/

theorem details_tmpl (hL : L.tmpl = Html.templatesOf R) {as : Text} (hne : as ≠ []) (n d m : Text) :
    L.tmpl.documentDetails.render L.lower [("Authors", .str as), ("RevLabel", .str "version".toList), ("RevNumber", .str n), ("RevDate", .str d), ("RevRemark", .str m)] =
      some ("<div class=\"details\">\n".toList ++ as ++ Revision.html R.xml ⟨[], n, d, m⟩ ++ "\n</div>\n".toList) := by
  rw [hL]
  unfold Html.templatesOf
  generalize hx : R.xml = x
  cases x
  · rw [if_neg (by decide)]
    show Tmpl.Html5.documentDetailsTmpl.render L.lower _ = _
    unfold Revision.html
    by_cases h1 : n = [] <;> by_cases h2 : d = [] <;> by_cases h3 : m = [] <;>
      simp [Tmpl.Html5.documentDetailsTmpl, Tmpl.Tm.render, Tmpl.Cond.eval, AMap.get, Tmpl.Val.truth, Tmpl.Val.shown, Tmpl.Fn.call, hne, h1, h2, h3, close]
  · rw [if_pos rfl]
    show Tmpl.Xhtml5.documentDetailsTmpl.render L.lower _ = _
    unfold Revision.html
    by_cases h1 : n = [] <;> by_cases h2 : d = [] <;> by_cases h3 : m = [] <;>
      simp [Tmpl.Xhtml5.documentDetailsTmpl, Tmpl.Tm.render, Tmpl.Cond.eval, AMap.get, Tmpl.Val.truth, Tmpl.Val.shown, Tmpl.Fn.call, hne, h1, h2, h3, close]

/-- As many keys as authors. -/
theorem fuel_enough {cfg : Config} (hA : Plain L cfg) (h : Head) : h.authors.length < (headAttrs cfg h).length + 1 := by
  have hnd : ((List.range h.authors.length).map (Rend.authorKey "author")).Nodup := by
    refine List.Nodup.map_on ?_ List.nodup_range
    intro i _ j _ e
    exact (key_inj (part_free _ (by decide)) (part_free _ (by decide)) e).2
  have hsub : (List.range h.authors.length).map (Rend.authorKey "author") ⊆ (headAttrs cfg h).map Prod.fst := by
    intro k hk
    obtain ⟨i, hi, rfl⟩ := List.mem_map.mp hk
    have hi := List.mem_range.mp hi
    have := get_part h hA (k := "author") (by decide) i
    rw [List.getElem?_eq_getElem hi] at this
    rw [← AMap.get_isSome_iff, this]
    rfl
  have := (hnd.subperm hsub).length_le
  simp only [List.length_map, List.length_range] at this
  omega

theorem present_get (v : Option Revision) (f : Revision → Text) :
    (match (v.bind (fun v => present (f v)) : Option AV) with | some (.str t) => some t | _ => none).getD [] = (v.map f).getD [] := by
  cases v with
  | none => rfl
  | some v =>
    show (match (present (f v) : Option AV) with | some (.str t) => some t | _ => none).getD [] = f v
    unfold present
    split <;> simp_all

theorem lines_ne (xhtml : Bool) : ∀ {as : List Author}, as ≠ [] → "\n".toList.intercalate (as.mapIdx (Author.html xhtml)) ≠ []
  | [], h => absurd rfl h
  | a :: as, _ => by
    rw [← authorLines_eq]
    intro h
    have h := (List.append_eq_nil_iff.mp h).1
    have h := (List.append_eq_nil_iff.mp h).2
    unfold Author.html at h
    rw [List.append_assoc, List.append_assoc, List.append_assoc, List.append_assoc, List.append_assoc] at h
    exact absurd (List.append_eq_nil_iff.mp h).1 (by decide)

theorem details_eq (xhtml : Bool) {h : Head} (he : h.authors ≠ []) : h.details xhtml = "<div class=\"details\">\n".toList ++ "\n".toList.intercalate (h.authors.mapIdx (Author.html xhtml)) ++
    Revision.html xhtml ⟨[], (h.revision.map (·.number)).getD [], (h.revision.map (·.date)).getD [], (h.revision.map (·.remark)).getD []⟩ ++ "\n</div>\n".toList := by
  unfold Head.details
  rw [if_neg he]
  congr 2
  generalize h.revision = r
  cases r with
  | none => rfl
  | some v =>
    show Revision.html xhtml v ++ [] = _
    rw [List.append_nil]
    rfl

theorem documentDetails_ok (hL : L.tmpl = Html.templatesOf R) {cfg : Config} (hA : Plain L cfg) {h : Head} {al : Char → Bool} (hh : h.Ok al) {c : Rend.Ctx} (hc : c.attrs = headAttrs cfg h) :
    documentDetails L c = .ok (h.details R.xml, c) := by
  unfold documentDetails
  show (if has c.attrs "authors" then (_ : M Text) else _) c = _
  have ha : has c.attrs "authors" = !h.authors.isEmpty := by
    rw [hc]
    exact get_authors h hA
  rw [ha, hc]
  by_cases he : h.authors = []
  · rw [he]
    unfold Head.details
    rw [if_pos he]
    rfl
  · have : h.authors.isEmpty = false := by cases hq : h.authors with | nil => exact absurd hq he | cons _ _ => rfl
    rw [this]
    show M.bind (authorDetails L (headAttrs cfg h) ((headAttrs cfg h).length + 1) (0 + 1)) _ c = _
    refine (C62.bind_ok (details_from hL (headAttrs cfg h) c h.authors 0 _ (fuel_enough hA h) (fun a hm => (hh.authors a hm).named) (fun j => ?_) (fun j => ?_))).trans ?_
    · rw [Nat.zero_add, get_part h hA (by decide)]
      cases h.authors[j]? <;> rfl
    · rw [Nat.zero_add, get_part h hA (by decide)]
      cases h.authors[j]? <;> rfl
    · rw [authorLines_eq]
      refine exec_ok ?_
      have hv : (getStr (headAttrs cfg h) "version-label").getD [] = "version".toList := by
        unfold getStr
        rw [get_other h (by decide) (by decide) (by decide)]
        unfold defaultAttrs
        rw [AMap.get_set_self]
        rfl
      have hn : (getStr (headAttrs cfg h) "revnumber").getD [] = (h.revision.map (·.number)).getD [] := by
        unfold getStr
        rw [get_number h hA]
        exact present_get h.revision (·.number)
      have hd : (getStr (headAttrs cfg h) "revdate").getD [] = (h.revision.map (·.date)).getD [] := by
        unfold getStr
        rw [get_date h hA]
        exact present_get h.revision (·.date)
      have hr : (getStr (headAttrs cfg h) "revremark").getD [] = (h.revision.map (·.remark)).getD [] := by
        unfold getStr
        rw [get_remark h hA]
        exact present_get h.revision (·.remark)
      rw [hv, hn, hd, hr, details_eq R.xml he]
      exact details_tmpl hL (lines_ne R.xml he) _ _ _

/-! ### The header -/

theorem header_tmpl (hL : L.tmpl = Html.templatesOf R) (t d : Text) : L.tmpl.articleHeader.render L.lower [("Header", .str t), ("Details", .str d)] =
    some ("<div id=\"header\">\n<h1>".toList ++ t ++ "</h1>\n".toList ++ d ++ "</div>\n".toList) := by
  have : L.tmpl.articleHeader = Tmpl.Html5.articleHeaderTmpl := by
    rw [hL]; unfold Html.templatesOf; split <;> rfl
  rw [this]
  by_cases h : d = [] <;>
    simp [Tmpl.Html5.articleHeaderTmpl, Tmpl.Tm.render, Tmpl.Cond.eval, AMap.get, Tmpl.Val.truth, Tmpl.Val.shown, Tmpl.Fn.call, h]

theorem preamble_tmpl (hL : L.tmpl = Html.templatesOf R) (t : Text) : L.tmpl.preamble.render L.lower [("Wrapper", .flag true), ("Content", .str t), ("ToC", .str [])] =
    some ("<div id=\"preamble\">\n<div class=\"sectionbody\">\n".toList ++ t ++ "</div>\n</div>\n".toList) := by
  have : L.tmpl.preamble = Tmpl.Html5.preambleTmpl := by
    rw [hL]; unfold Html.templatesOf; split <;> rfl
  rw [this]
  simp [Tmpl.Html5.preambleTmpl, Tmpl.Tm.render, Tmpl.Cond.eval, AMap.get, Tmpl.Val.truth, Tmpl.Val.shown, Tmpl.Fn.call]

/-- The title, as it is shown. -/
theorem title_plain {h : Head} {al : Char → Bool} (hh : h.Ok al) : ∀ c ∈ h.title, PlainText.isSpecial c = false := by
  intro c hc
  have hp : ∀ m ∈ ["<", ">", "&"], ¬ m.toList <:+: h.title ++ h.trail := fun m hm => hh.title.plain m (by revert m; decide)
  have : ∀ x : Char, c = x → [x] <:+: h.title ++ h.trail := by
    rintro x rfl
    obtain ⟨a, b, e⟩ := List.append_of_mem hc
    exact ⟨a, b ++ h.trail, by rw [e]; simp⟩
  unfold PlainText.isSpecial
  by_cases h1 : c = '<'
  · exact absurd (this _ h1) (hp "<" (by decide))
  by_cases h2 : c = '>'
  · exact absurd (this _ h2) (hp ">" (by decide))
  by_cases h3 : c = '&'
  · exact absurd (this _ h3) (hp "&" (by decide))
  simp [h1, h2, h3]

theorem documentHeader_ok (hL : L.tmpl = Html.templatesOf R) {cfg : Config} (hA : Plain L cfg) {h : Head} {al : Char → Bool} (hh : h.Ok al) {c : Rend.Ctx} (hc : c.attrs = headAttrs cfg h)
    {u : Bool} (hu : getBoolD c.attrs "unicode" true = u) (n : Nat) (a : Rend.Attrs) (es : List El) :
    documentHeader L (renderElement L (n + 1)) (some (a, some [.str h.title], es)) c = .ok (h.html R.xml u, c) := by
  unfold documentHeader
  have ht : renderAll (renderElement L (n + 1)) [.str h.title] c = .ok (h.title.flatMap (Prose.char u), c) := by
    show Except.ok (Escape.renderString (getBoolD c.attrs "unicode" true) h.title ++ [], c) = _
    rw [List.append_nil, hu, C60.renderString_flat u _ (title_plain hh)]
  refine (C62.bind_ok ht).trans ?_
  refine (C62.bind_ok (documentDetails_ok hL hA hh hc)).trans ?_
  exact exec_ok (header_tmpl hL _ _)

/-! ### The page -/

theorem documentTitle_ok {h : Head} {al : Char → Bool} (hh : h.Ok al) (n : Nat) (esc : Option (Text → Text)) (a : Rend.Attrs) (es : List El) :
    documentTitle (plain L esc (n + 1)) (some (a, some [.str h.title], es)) = .ok h.title := by
  show Except.ok (trimRight (· == ' ') h.title ++ []) = _
  rw [List.append_nil]
  congr 1
  have hl := hh.title.last
  unfold trimRight
  cases hr : h.title.reverse with
  | nil =>
    have : h.title = [] := by simpa using hr
    rw [this]
    rfl
  | cons c t =>
    have : h.title.getLast? = some c := by rw [← List.head?_reverse, hr]; rfl
    have hs := hl c this
    rw [List.dropWhile_cons_of_neg, ← hr, List.reverse_reverse]
    intro hq
    have : c = ' ' := by simpa using hq
    rw [this] at hs
    exact absurd hs (by decide)

theorem authorNames_eq : ∀ (as : List Author), authorNames (as.map toAuthor) = .ok (as.map Author.name)
  | [] => rfl
  | a :: as => by
    show (do let t ← fullName (toAuthor a); let u ← authorNames (as.map toAuthor); return t :: u) = _
    rw [fullName_eq, authorNames_eq as]
    rfl

theorem joinWith_eq (sep : Text) : ∀ (l : List Text), joinWith sep l = sep.intercalate l
  | [] => rfl
  | [a] => by simp [joinWith, List.intercalate]
  | a :: b :: l => by
    have := joinWith_eq sep (b :: l)
    simp [joinWith, List.intercalate, this] at *

end
end C66
end Verif
