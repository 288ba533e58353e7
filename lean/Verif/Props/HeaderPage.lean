import Verif.Props.HeaderRender

/-!
# C66, continued — Whole pages
-/
namespace Verif
namespace C66
open Headed
open Sectioned (Item)
open Rend hiding Item bind_ok Author expandRevision

/-! ### Steps of templates -/

section
variable {lower : Text → Text} {env : Tmpl.Env}

/-- A template writes a text. -/
structure Ren (lower : Text → Text) (env : Tmpl.Env) (k : Tmpl.Tm) (x : Text) : Prop where
  ren : k.render lower env = some x

theorem step_text {s : String} {k : Tmpl.Tm} {x : Text} (h : Ren lower env k x) : Ren lower env (.text s k) (s.toList ++ x) := by
  constructor
  show (k.render lower env).map (s.toList ++ ·) = _
  rw [h.ren]
  rfl

theorem step_end {s : String} : Ren lower env (.text s .done) s.toList := by
  constructor
  show some (s.toList ++ []) = _
  rw [List.append_nil]

theorem step_out {f : String} {k : Tmpl.Tm} {t x : Text} (hf : env.get f = some (.str t)) (h : Ren lower env k x) : Ren lower env (.out .asIs f k) (t ++ x) := by
  constructor
  show ((env.get f).bind Tmpl.Val.shown).bind (fun v => (k.render lower env).map (Tmpl.Fn.asIs.call lower v ++ ·)) = _
  rw [hf]
  show (k.render lower env).map (t ++ ·) = _
  rw [h.ren]
  rfl

theorem step_last {f : String} {t : Text} (hf : env.get f = some (.str t)) : Ren lower env (.out .asIs f .done) t := by
  constructor
  show ((env.get f).bind Tmpl.Val.shown).bind (fun v => (some []).map (Tmpl.Fn.asIs.call lower v ++ ·)) = _
  rw [hf]
  show some (t ++ []) = _
  rw [List.append_nil]

theorem step_given {f : String} {a k : Tmpl.Tm} {t y x : Text} (hf : env.get f = some (.str t)) (ha : Ren lower env a y) (h : Ren lower env k x) :
    Ren lower env (.cond (.is f) a .done k) ((if t = [] then [] else y) ++ x) := by
  constructor
  show ((env.get f).map Tmpl.Val.truth).bind (fun r => (if r then a.render lower env else some []).bind (fun t => (k.render lower env).map (t ++ ·))) = _
  rw [hf, ha.ren, h.ren]
  cases t <;> rfl

theorem step_always {f : String} {a k : Tmpl.Tm} {t y x : Text} (hf : env.get f = some (.str t)) (hne : t ≠ []) (ha : Ren lower env a y) (h : Ren lower env k x) :
    Ren lower env (.cond (.is f) a .done k) (y ++ x) := by
  have := step_given hf ha h
  rwa [if_neg hne] at this

theorem step_never {f : String} {a k : Tmpl.Tm} {x : Text} (hf : env.get f = some (.str [])) (h : Ren lower env k x) :
    Ren lower env (.cond (.is f) a .done k) x := by
  constructor
  show ((env.get f).map Tmpl.Val.truth).bind (fun r => (if r then a.render lower env else some []).bind (fun t => (k.render lower env).map (t ++ ·))) = _
  rw [hf, h.ren]
  rfl

theorem step_flag {f : String} {a k : Tmpl.Tm} {b : Bool} {y x : Text} (hf : env.get f = some (.flag b)) (ha : Ren lower env a y) (h : Ren lower env k x) :
    Ren lower env (.cond (.is f) a .done k) ((if b then y else []) ++ x) := by
  constructor
  show ((env.get f).map Tmpl.Val.truth).bind (fun r => (if r then a.render lower env else some []).bind (fun t => (k.render lower env).map (t ++ ·))) = _
  rw [hf, ha.ren, h.ren]
  cases b <;> rfl

theorem step_loop {f : String} {body k : Tmpl.Tm} {l : List Text} {g : Text → Text} {x : Text} (hf : env.get f = some (.strs l))
    (hb : ∀ y, Ren lower (("$", .str y) :: env) body (g y)) (h : Ren lower env k x) :
    Ren lower env (.loop f body k) (l.flatMap g ++ x) := by
  have he : ∀ l : List Text, Tmpl.eachOf (fun x => body.render lower ((Tmpl.elemField, .str x) :: env)) l = some (l.flatMap g) := by
    intro l
    induction l with
    | nil => rfl
    | cons y l ih =>
      show (body.render lower (("$", .str y) :: env)).bind (fun t => (Tmpl.eachOf _ l).map (t ++ ·)) = _
      rw [(hb y).ren, ih]
      rfl
  constructor
  show (match env.get f with
    | some (.strs l) => (Tmpl.eachOf (fun x => body.render lower ((Tmpl.elemField, .str x) :: env)) l).bind (fun t => (k.render lower env).map (t ++ ·))
    | _ => none) = _
  rw [hf]
  dsimp only
  rw [he, h.ren]
  rfl

end

section
variable {L : Lib} {R : Html.Rules}

/-- The data of a page. -/
abbrev pageEnv (doctype desc title authors h b rev upd : Text) (css : List Text) (hd ft : Bool) : Tmpl.Env :=
  [("Doctype", .str doctype), ("Generator", .str "libasciidoc".toList), ("Description", .str desc), ("Title", .str title), ("Authors", .str authors), ("Header", .str h), ("Roles", .str []),
   ("ID", .str []), ("Content", .str b), ("RevNumber", .str rev), ("LastUpdated", .str upd), ("CSS", .strs css), ("IncludeHTMLBodyHeader", .flag hd), ("IncludeHTMLBodyFooter", .flag ft)]

theorem html_article (lower : Text → Text) (doctype desc title authors h b rev upd : Text) (css : List Text) (hd ft : Bool) :
    Ren lower (pageEnv doctype desc title authors h b rev upd css hd ft) Tmpl.Html5.articleTmpl
      ("<!DOCTYPE html>\n<html lang=\"en\">\n<head>\n<meta charset=\"UTF-8\">\n<meta http-equiv=\"X-UA-Compatible\" content=\"IE=edge\">\n<meta name=\"viewport\" content=\"width=device-width, initial-scale=1.0\">\n".toList ++
        (("<meta name=\"generator\" content=\"".toList ++ ("libasciidoc".toList ++ "\">\n".toList)) ++
        ((if desc = [] then [] else "<meta name=\"description\" content=\"".toList ++ (desc ++ "\">\n".toList)) ++
        ((if authors = [] then [] else "<meta name=\"author\" content=\"".toList ++ (authors ++ "\">\n".toList)) ++
        (css.flatMap (fun c => "<link type=\"text/css\" rel=\"stylesheet\" href=\"".toList ++ (c ++ "\">\n".toList)) ++
        ("<title>".toList ++ (title ++ ("</title>\n</head>\n<body".toList ++ (" class=\"".toList ++ (doctype ++ ("\">\n".toList ++
        ((if hd then h else []) ++ ("<div id=\"content\">\n".toList ++ (b ++ ("</div>\n".toList ++
        ((if ft then "<div id=\"footer\">\n<div id=\"footer-text\">\n".toList ++ ((if rev = [] then [] else "Version ".toList ++ (rev ++ "<br>\n".toList)) ++
          ("Last updated ".toList ++ (upd ++ "\n</div>\n</div>\n".toList))) else []) ++ "</body>\n</html>\n".toList)))))))))))))))) := by
  unfold Tmpl.Html5.articleTmpl
  refine step_text ?_
  refine step_always rfl (by decide) (step_text (step_out rfl step_end)) ?_
  refine step_given rfl (step_text (step_out rfl step_end)) ?_
  refine step_given rfl (step_text (step_out rfl step_end)) ?_
  refine step_loop (g := fun c => "<link type=\"text/css\" rel=\"stylesheet\" href=\"".toList ++ (c ++ "\">\n".toList)) rfl (fun y => step_text (step_out rfl step_end)) ?_
  refine step_text (step_out rfl (step_text (step_never rfl (step_text (step_out rfl (step_never rfl (step_text ?_)))))))
  refine step_flag rfl (step_last rfl) ?_
  refine step_text (step_out rfl (step_text ?_))
  exact step_flag rfl (step_text (step_given rfl (step_text (step_out rfl step_end)) (step_text (step_out rfl step_end)))) step_end

theorem xhtml_article (lower : Text → Text) (doctype desc title authors h b rev upd : Text) (css : List Text) (hd ft : Bool) :
    Ren lower (pageEnv doctype desc title authors h b rev upd css hd ft) Tmpl.Xhtml5.articleTmpl
      ("<!DOCTYPE html>\n<html xmlns=\"https://www.w3.org/1999/xhtml\" lang=\"en\">\n<head>\n<meta charset=\"UTF-8\"/>\n<meta http-equiv=\"X-UA-Compatible\" content=\"IE=edge\"/>\n<meta name=\"viewport\" content=\"width=device-width, initial-scale=1.0\"/>\n".toList ++
        (("<meta name=\"generator\" content=\"".toList ++ ("libasciidoc".toList ++ "\"/>\n".toList)) ++
        ((if authors = [] then [] else "<meta name=\"author\" content=\"".toList ++ (authors ++ "\"/>\n".toList)) ++
        (css.flatMap (fun c => "<link type=\"text/css\" rel=\"stylesheet\" href=\"".toList ++ (c ++ "\"/>\n".toList)) ++
        ("<title>".toList ++ (title ++ ("</title>\n</head>\n<body".toList ++ (" class=\"".toList ++ (doctype ++ ("\">\n".toList ++
        ((if hd then h else []) ++ ("<div id=\"content\">\n".toList ++ (b ++ ("</div>\n".toList ++
        ((if ft then "<div id=\"footer\">\n<div id=\"footer-text\">\n".toList ++ ((if rev = [] then [] else "Version ".toList ++ (rev ++ "<br/>\n".toList)) ++
          ("Last updated ".toList ++ (upd ++ "\n</div>\n</div>\n".toList))) else []) ++ "</body>\n</html>\n".toList))))))))))))))) := by
  unfold Tmpl.Xhtml5.articleTmpl
  refine step_text ?_
  refine step_always rfl (by decide) (step_text (step_out rfl step_end)) ?_
  refine step_given rfl (step_text (step_out rfl step_end)) ?_
  refine step_loop (g := fun c => "<link type=\"text/css\" rel=\"stylesheet\" href=\"".toList ++ (c ++ "\"/>\n".toList)) rfl (fun y => step_text (step_out rfl step_end)) ?_
  refine step_text (step_out rfl (step_text (step_never rfl (step_text (step_out rfl (step_never rfl (step_text ?_)))))))
  refine step_flag rfl (step_last rfl) ?_
  refine step_text (step_out rfl (step_text ?_))
  exact step_flag rfl (step_text (step_given rfl (step_text (step_out rfl step_end)) (step_text (step_out rfl step_end)))) step_end

theorem names_ne {as : List Author} (hn : ∀ a ∈ as, a.first ≠ []) (hne : as ≠ []) : "; ".toList.intercalate (as.map Author.name) ≠ [] := by
  cases as with
  | nil => exact absurd rfl hne
  | cons a as =>
    have := name_ne (hn a List.mem_cons_self)
    rw [← joinWith_eq]
    cases as with
    | nil => exact this
    | cons b as =>
      intro h
      have h : a.name ++ "; ".toList ++ joinWith "; ".toList (b.name :: as.map Author.name) = [] := h
      exact this (List.append_eq_nil_iff.mp (List.append_eq_nil_iff.mp h).1).1

theorem footer_number (xhtml : Bool) (r : Option Revision) :
    (if (r.map (·.number)).getD [] = [] then [] else "Version ".toList ++ ((r.map (·.number)).getD [] ++ ("<br".toList ++ (close xhtml ++ "\n".toList)))) =
    ((r.toList.map Revision.number).filter (· ≠ [])).flatMap (fun n => "Version ".toList ++ n ++ "<br".toList ++ close xhtml ++ "\n".toList) := by
  cases r with
  | none => rfl
  | some r =>
    show (if r.number = [] then [] else "Version ".toList ++ (r.number ++ _)) = (([r.number].filter (· ≠ [])).flatMap _)
    by_cases h : r.number = []
    · rw [if_pos h, h]; rfl
    · rw [if_neg h, List.filter_cons_of_pos (by simpa using h)]
      simp

/-- The whole page, from its parts. -/
theorem article_page (hL : L.tmpl = Html.templatesOf R) (s : Settings) (hs : s.xhtml = R.xml) {d : Document} (hn : ∀ a ∈ d.head.authors, a.first ≠ []) (alnum : Char → Bool) :
    L.tmpl.article.render L.lower (pageEnv s.doctype s.description d.head.title ("; ".toList.intercalate (d.head.authors.map Author.name))
      (d.head.html s.xhtml s.unicode) (content L.lower alnum s.unicode d.body) ((d.head.revision.map (·.number)).getD []) s.updated s.css s.header s.footer) =
      some (page L.lower alnum s d) := by
  have ha : ∀ y : Text, (if "; ".toList.intercalate (d.head.authors.map Author.name) = [] then [] else y) = if d.head.authors = [] then [] else y := by
    intro y
    by_cases h : d.head.authors = []
    · rw [if_pos h, h]; rfl
    · rw [if_neg h, if_neg (names_ne hn h)]
  unfold page
  rw [← footer_number]
  generalize hx : R.xml = x at hs
  cases x
  · have : L.tmpl.article = Tmpl.Html5.articleTmpl := by rw [hL]; unfold Html.templatesOf; rw [hx]; rfl
    rw [this, (html_article ..).ren, hs, ha]
    have e1 : ("<meta name=\"generator\" content=\"".toList ++ ("libasciidoc".toList ++ "\">\n".toList)) = "<meta name=\"generator\" content=\"libasciidoc\"".toList ++ (">".toList ++ "\n".toList) := by decide
    have e2 : ("\">\n".toList : Text) = "\"".toList ++ (">".toList ++ "\n".toList) := by decide
    have e3 : ("<br>\n".toList : Text) = "<br".toList ++ (">".toList ++ "\n".toList) := by decide
    have e4 : ("</title>\n</head>\n<body".toList ++ (" class=\"".toList : Text)) = "</title>\n</head>\n<body class=\"".toList := by decide
    rw [e1]
    simp only [e2, e3, close, if_false, Bool.false_eq_true, false_or, List.append_assoc]
    rw [← e4]
    simp only [List.append_assoc]
  · have : L.tmpl.article = Tmpl.Xhtml5.articleTmpl := by rw [hL]; unfold Html.templatesOf; rw [hx]; rfl
    rw [this, (xhtml_article ..).ren, hs, ha]
    have e1 : ("<meta name=\"generator\" content=\"".toList ++ ("libasciidoc".toList ++ "\"/>\n".toList)) = "<meta name=\"generator\" content=\"libasciidoc\"".toList ++ ("/>".toList ++ "\n".toList) := by decide
    have e2 : ("\"/>\n".toList : Text) = "\"".toList ++ ("/>".toList ++ "\n".toList) := by decide
    have e3 : ("<br/>\n".toList : Text) = "<br".toList ++ ("/>".toList ++ "\n".toList) := by decide
    have e4 : ("</title>\n</head>\n<body".toList ++ (" class=\"".toList : Text)) = "</title>\n</head>\n<body class=\"".toList := by decide
    rw [e1]
    simp only [e2, e3, close, if_true, true_or, List.nil_append, List.append_assoc]
    rw [← e4]
    simp only [List.append_assoc]

/-! ### Rendering -/

/-- As `C63.Writes`, in a document with a header. -/
def WritesH (m : M Text) (u : Bool) (t : Text) : Prop := ∀ c, C62.Fine u c → c.numbers = [] → c.hasHeader = true → ∃ k, m c = .ok (t, { c with counters := k })

theorem WritesH.of {m : M Text} {u : Bool} {t : Text} (h : C63.Writes m u t) : WritesH m u t := fun c h1 h2 _ => h c h1 h2

theorem preamble_shows (hL : L.tmpl = Html.templatesOf R) {u : Bool} {n : Nat} {es rest : List El} {t t' : Text} (h : C63.Writes (renderAll (renderElement L n) es) u t)
    (h' : C63.Writes (renderAll (renderElement L (n + 1)) rest) u t') :
    WritesH (renderAll (renderElement L (n + 1)) (.preamble es none :: rest)) u
      (("<div id=\"preamble\">\n<div class=\"sectionbody\">\n".toList ++ t ++ "</div>\n</div>\n".toList) ++ t') := by
  intro c h1 h2 h3
  obtain ⟨k, hk⟩ := h c h1 h2
  obtain ⟨k', hk'⟩ := h' { c with counters := k } (C62.fine_counters h1 k) h2
  refine ⟨k', ?_⟩
  have hp : renderElement L (n + 1) (.preamble es none) c = .ok ("<div id=\"preamble\">\n<div class=\"sectionbody\">\n".toList ++ t ++ "</div>\n</div>\n".toList, { c with counters := k }) := by
    show renderPreamble L (renderElement L n) es none c = _
    unfold renderPreamble
    refine (C62.bind_ok hk).trans ?_
    show exec L (·.preamble) [("Wrapper", .flag c.hasHeader), ("Content", .str t), ("ToC", .str [])] { c with counters := k } = _
    rw [h3]
    exact exec_ok (preamble_tmpl hL t)
  exact (C62.bind_ok hp).trans ((C62.bind_ok hk').trans rfl)

/-- What the configuration says. -/
def settings (L : Lib) (R : Html.Rules) (cfg : Config) : Settings where
  xhtml := R.xml
  unicode := getBoolD cfg.attrs "unicode" true
  doctype := getStrD L.sprint cfg.attrs "doctype" "article".toList
  description := getStrD L.sprint cfg.attrs "description" []
  css := cfg.css
  updated := cfg.lastUpdated
  header := !Rend.has cfg.attrs "noheader"
  footer := !Rend.has cfg.attrs "nofooter"

theorem get_kept (cfg : Config) (h : Head) {q : String} (hq : q ∈ others) (h1 : q ∉ revKeys) (h2 : q ≠ "authors") (h3 : q ∉ ["figure-caption", "example-caption", "table-caption", "version-label"]) :
    AMap.get (headAttrs cfg h) q = AMap.get cfg.attrs q := by
  rw [get_other h hq h1 h2, C60.get_default cfg h3]

theorem decls_not_numbered (h : Head) : (numberEls (declEls h) false 0 []).1 = false := by
  unfold declEls
  split <;> cases h.revision <;> rfl

/-- The page of a document with a header, given what is made of its elements. -/
theorem page_of (hL : L.tmpl = Html.templatesOf R) {cfg : Config} (hA : Plain L cfg) {d : Document} {alnum : Char → Bool} (hh : d.head.Ok alnum) {body : List El}
    (hnum : numberEls body false 0 [] = (false, [])) {refs : List (Text × AV)} {toc : Option (Option (List Rend.Toc))} (htoc : ∀ l, toc = some (some l) → C63.Entries refs l) {n : Nat}
    (h : WritesH (renderAll (renderElement L (n + 1)) body) (getBoolD cfg.attrs "unicode" true) (content L.lower alnum (getBoolD cfg.attrs "unicode" true) d.body)) :
    render L (n + 1) ⟨.docHeader [] (some [.str d.head.title]) (declEls d.head) :: body, refs, [], toc⟩ cfg =
      .ok (if cfg.wrap then page L.lower alnum (settings L R cfg) d else content L.lower alnum (getBoolD cfg.attrs "unicode" true) d.body) := by
  have hu : getBoolD (headAttrs cfg d.head) "unicode" true = getBoolD cfg.attrs "unicode" true := by
    unfold getBoolD
    rw [get_kept cfg d.head (by decide) (by decide) (by decide) (by decide)]
  have hhb : hasOption (headAttrs cfg d.head) "hardbreaks" = false := by
    have := hA.hardbreaks
    unfold hasOption Rend.has at this ⊢
    rw [get_kept cfg d.head (by decide) (by decide) (by decide) (by decide), get_kept cfg d.head (by decide) (by decide) (by decide) (by decide)]
    exact this
  have hdt : getStrD L.sprint (headAttrs cfg d.head) "doctype" "article".toList = getStrD L.sprint cfg.attrs "doctype" "article".toList := by
    unfold getStrD
    rw [get_kept cfg d.head (by decide) (by decide) (by decide) (by decide)]
  have ht : AMap.get (headAttrs cfg d.head) "toc" = none := by
    rw [get_kept cfg d.head (by decide) (by decide) (by decide) (by decide)]
    exact hA.toc
  have hds : getStrD L.sprint (headAttrs cfg d.head) "description" [] = getStrD L.sprint cfg.attrs "description" [] := by
    unfold getStrD
    rw [get_kept cfg d.head (by decide) (by decide) (by decide) (by decide)]
  have hrev : getStrD L.sprint (headAttrs cfg d.head) "revnumber" [] = (d.head.revision.map (·.number)).getD [] := by
    unfold getStrD
    rw [get_number d.head hA]
    generalize d.head.revision = r
    cases r with
    | none => rfl
    | some v =>
      show (match present v.number with | some .nil => [] | some (.str t) => t | some v => L.sprint v | none => []) = v.number
      unfold present
      by_cases hv : v.number = []
      · rw [if_pos hv, hv]
      · rw [if_neg hv]
  have hnh : Rend.has (headAttrs cfg d.head) "noheader" = Rend.has cfg.attrs "noheader" := by
    unfold Rend.has
    rw [get_kept cfg d.head (by decide) (by decide) (by decide) (by decide)]
  have hnf : Rend.has (headAttrs cfg d.head) "nofooter" = Rend.has cfg.attrs "nofooter" := by
    unfold Rend.has
    rw [get_kept cfg d.head (by decide) (by decide) (by decide) (by decide)]
  have hns : sectionNumbers (.docHeader [] (some [.str d.head.title]) (declEls d.head) :: body) = [] := by
    show (numberEls (_ :: body) (numberEls (declEls d.head) false 0 []).1 0 []).2 = []
    rw [decls_not_numbered]
    show (numberEls body false 0 []).2 ++ [] = []
    rw [hnum]
    rfl
  let c : Rend.Ctx := ⟨headAttrs cfg d.head, false, 0, [], refs, true, [], []⟩
  have hctx : newContext ⟨.docHeader [] (some [.str d.head.title]) (declEls d.head) :: body, refs, [], toc⟩ cfg = .ok ⟨revised (if d.head.authors = [] then defaultAttrs cfg
      else AMap.setAll (AMap.set (defaultAttrs cfg) "authors" (.authors (d.head.authors.map toAuthor))) (expansion 0 d.head.authors)) d.head.revision, false, 0, [], refs, true, [], []⟩ := by
    unfold newContext
    show (match addHeader (defaultAttrs cfg) (some ([], some [.str d.head.title], declEls d.head)) with | .error e => _ | .ok attrs => _) = _
    rw [addHeader_eq]
    rfl
  have hstart : startContext ⟨.docHeader [] (some [.str d.head.title]) (declEls d.head) :: body, refs, [], toc⟩ ⟨revised (if d.head.authors = [] then defaultAttrs cfg
      else AMap.setAll (AMap.set (defaultAttrs cfg) "authors" (.authors (d.head.authors.map toAuthor))) (expansion 0 d.head.authors)) d.head.revision, false, 0, [], refs, true, [], []⟩ = c := by
    unfold startContext
    dsimp only
    rw [hns]
    rfl
  obtain ⟨k, hk⟩ := h c ⟨hu, hhb, rfl, rfl⟩ rfl rfl
  obtain ⟨toc', htoc'⟩ := C63.prerender (L := L) (toc := toc) n (c := c) htoc
  have hbody : documentBody L (renderElement L (n + 1)) body toc' [] c = .ok (content L.lower alnum (getBoolD cfg.attrs "unicode" true) d.body, { c with counters := k }) := by
    unfold documentBody
    show M.bind (M.lift (placeToc (headAttrs cfg d.head) toc' _)) _ c = _
    unfold M.bind
    rw [C63.place_unset ht]
    refine (C62.bind_ok hk).trans ?_
    show Except.ok (_ ++ [], _) = _
    rw [List.append_nil]
  have hparts : ∀ pl, renderParts L (renderElement L (n + 1)) pl cfg.wrap ⟨.docHeader [] (some [.str d.head.title]) (declEls d.head) :: body, refs, [], toc⟩ c =
      .ok ((d.head.html R.xml (getBoolD cfg.attrs "unicode" true), content L.lower alnum (getBoolD cfg.attrs "unicode" true) d.body, []), { c with counters := k }) := by
    intro pl
    unfold renderParts
    refine (C62.bind_ok htoc').trans ?_
    have hs : splitAndRender L (renderElement L (n + 1)) pl cfg.wrap ⟨.docHeader [] (some [.str d.head.title]) (declEls d.head) :: body, refs, [], toc'⟩ c =
        .ok ((d.head.html R.xml (getBoolD cfg.attrs "unicode" true), content L.lower alnum (getBoolD cfg.attrs "unicode" true) d.body), { c with counters := k }) := by
      unfold splitAndRender
      show (if getStrD L.sprint (headAttrs cfg d.head) "doctype" "article".toList = "manpage".toList then (_ : M (Text × Text)) else _) c = _
      rw [if_neg (by rw [hdt]; exact hA.doctype)]
      refine (C62.bind_ok (documentHeader_ok hL hA hh (c := c) rfl hu n _ _)).trans ?_
      exact (C62.bind_ok hbody).trans rfl
    exact (C62.bind_ok hs).trans rfl
  have hmeta : authorsMeta (some ([], some [.str d.head.title], declEls d.head)) = .ok ("; ".toList.intercalate (d.head.authors.map Author.name)) := by
    unfold authorsMeta
    dsimp only
    rw [authors_of]
    by_cases hq : d.head.authors = []
    · rw [if_pos hq, hq]; rfl
    · rw [if_neg hq]
      dsimp only
      rw [authorNames_eq]
      dsimp only
      rw [joinWith_eq]
  have hpage := article_page hL (settings L R cfg) rfl (fun a ha => (hh.authors a ha).named) alnum
  unfold render
  dsimp only
  rw [hctx]
  dsimp only
  rw [show documentTitle _ (header (.docHeader [] (some [.str d.head.title]) (declEls d.head) :: body)) = .ok d.head.title from documentTitle_ok hh n _ _ _]
  dsimp only
  rw [hstart, hparts]
  dsimp only
  unfold renderPage
  cases cfg.wrap
  · rfl
  · rw [if_pos rfl, if_pos rfl]
    rw [show authorsMeta (header (.docHeader [] (some [.str d.head.title]) (declEls d.head) :: body)) = _ from hmeta]
    dsimp only
    have he : articleEnv L ⟨.docHeader [] (some [.str d.head.title]) (declEls d.head) :: body, refs, [], toc⟩ cfg { c with counters := k } d.head.title
        ("; ".toList.intercalate (d.head.authors.map Author.name)) (d.head.html R.xml (getBoolD cfg.attrs "unicode" true)) (content L.lower alnum (getBoolD cfg.attrs "unicode" true) d.body) [] =
        pageEnv (settings L R cfg).doctype (settings L R cfg).description d.head.title ("; ".toList.intercalate (d.head.authors.map Author.name))
          (d.head.html (settings L R cfg).xhtml (settings L R cfg).unicode) (content L.lower alnum (settings L R cfg).unicode d.body) ((d.head.revision.map (·.number)).getD [])
          (settings L R cfg).updated (settings L R cfg).css (settings L R cfg).header (settings L R cfg).footer := by
      unfold articleEnv
      show [_, _, ("Description", _), _, _, _, _, _, _, _, _, _, _, _] = _
      dsimp only [c]
      rw [hdt, hds, hrev, hnh, hnf]
      rfl
    rw [he, hpage]

end
end C66
end Verif
