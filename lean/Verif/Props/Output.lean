import Verif.Model.Output

/-!
C34 — A failed conversion writes nothing, a successful one writes the complete document.
C44 — The page written around the content of a standalone document.
-/
namespace Verif
namespace C34
open Output

/-- The results of all the stages, when they all succeed. -/
structure Rendered {Doc : Type} (S : Stages Doc) (doc : Doc) (title header content roles : Text) : Prop where
  preprocess : ∃ t, S.preprocess = .ok t ∧ S.parse t = .ok doc
  validate : S.validate doc = .ok ()
  context : S.context doc = .ok ()
  title : S.title doc = .ok title
  sectionNumbers : S.sectionNumbers doc = .ok ()
  tableOfContents : S.tableOfContents doc = .ok ()
  render : S.splitAndRender doc = .ok (header, content)
  roles : S.roles doc = .ok roles

/-- The complete document: the content alone, or in the page of the template. -/
inductive IsDocument {Doc : Type} (S : Stages Doc) : Bool → Text → Prop
  | bare {doc title header content roles} : Rendered S doc title header content roles →
      IsDocument S false content
  | page {doc title header content roles tmpl} : Rendered S doc title header content roles →
      S.template = .ok tmpl →
      IsDocument S true (tmpl (S.page doc title header content roles)).flatten

/-- A writer that takes everything. -/
def Reliable (w : Writer) : Prop := w.limit = none

theorem andThen_cases {α : Type} (r : Res α) (w : Writer) (k : α → Writer × Outcome) :
    (∃ a, r = .ok a ∧ r.andThen w k = k a) ∨ ((∀ a, r ≠ .ok a) ∧ (r.andThen w k).1 = w ∧ (r.andThen w k).2 ≠ .success) := by
  cases r with
  | ok a => exact Or.inl ⟨a, rfl, rfl⟩
  | err => exact Or.inr ⟨(fun a h => nomatch h), rfl, (fun h => nomatch h)⟩
  | panic => exact Or.inr ⟨(fun a h => nomatch h), rfl, (fun h => nomatch h)⟩

theorem andThen_elim {α : Type} (r : Res α) (w : Writer) (k : α → Writer × Outcome) (Q : Writer × Outcome → Prop)
    (bad : (∀ a, r ≠ .ok a) → ∀ o : Outcome, o ≠ .success → Q (w, o)) (good : ∀ a, r = .ok a → Q (k a)) :
    Q (r.andThen w k) := by
  cases r with
  | ok a => exact good a rfl
  | err => exact bad (fun a h => nomatch h) _ (fun h => nomatch h)
  | panic => exact bad (fun a h => nomatch h) _ (fun h => nomatch h)

/-- Either a stage did not succeed, and nothing was written; or all succeeded and the document is being
written. -/
theorem convert_cases {Doc : Type} (S : Stages Doc) (wrap : Bool) (w : Writer) :
    ((convert S wrap w).1 = w ∧ (convert S wrap w).2 ≠ .success ∧ ∀ d, ¬ IsDocument S wrap d) ∨
    (∃ doc title header content roles, Rendered S doc title header content roles ∧
      convert S wrap w = output S wrap w doc title header content roles) := by
  have noDoc : (∀ doc title header content roles, ¬ Rendered S doc title header content roles) →
      ∀ d, ¬ IsDocument S wrap d := by
    intro h d hd
    cases hd with
    | bare r => exact h _ _ _ _ _ r
    | page r _ => exact h _ _ _ _ _ r
  let Q : Writer × Outcome → Prop := fun r => (r.1 = w ∧ r.2 ≠ .success ∧ ∀ d, ¬ IsDocument S wrap d) ∨
    (∃ doc title header content roles, Rendered S doc title header content roles ∧
      r = output S wrap w doc title header content roles)
  show Q (convert S wrap w)
  unfold convert
  have fail : (∀ doc title header content roles, ¬ Rendered S doc title header content roles) →
      ∀ o : Outcome, o ≠ .success → Q (w, o) := fun h o ho => Or.inl ⟨rfl, ho, noDoc h⟩
  refine andThen_elim _ w _ Q (fun h1 => fail fun d t h c r R => (let ⟨x, hx, _⟩ := R.preprocess; h1 x hx)) fun t h1 => ?_
  refine andThen_elim _ w _ Q (fun h2 => fail fun d _ h c r R => ?_) fun doc h2 => ?_
  · obtain ⟨x, hx, hp⟩ := R.preprocess
    rw [h1] at hx; cases hx
    exact h2 d hp
  have hdoc : ∀ {d t' h c r}, Rendered S d t' h c r → d = doc := by
    intro d t' h c r R
    obtain ⟨x, hx, hp⟩ := R.preprocess
    rw [h1] at hx; cases hx
    rw [h2] at hp; cases hp; rfl
  refine andThen_elim _ w _ Q (fun h => fail fun d _ _ c r R => h () (hdoc R ▸ R.validate)) fun _ h3 => ?_
  refine andThen_elim _ w _ Q (fun h => fail fun d _ _ c r R => h () (hdoc R ▸ R.context)) fun _ h4 => ?_
  refine andThen_elim _ w _ Q (fun h => fail fun d t _ c r R => h t (hdoc R ▸ R.title)) fun title h5 => ?_
  refine andThen_elim _ w _ Q (fun h => fail fun d _ _ c r R => h () (hdoc R ▸ R.sectionNumbers)) fun _ h6 => ?_
  refine andThen_elim _ w _ Q (fun h => fail fun d _ _ c r R => h () (hdoc R ▸ R.tableOfContents)) fun _ h7 => ?_
  refine andThen_elim _ w _ Q (fun h => fail fun d _ hd c r R => h (hd, c) (hdoc R ▸ R.render)) fun hc h8 => ?_
  refine andThen_elim _ w _ Q (fun h => fail fun d _ _ c r R => h r (hdoc R ▸ R.roles)) fun roles h9 => ?_
  exact Or.inr ⟨doc, title, hc.1, hc.2, roles, ⟨⟨t, h1, h2⟩, h3, h4, h5, h6, h7, h8, h9⟩, rfl⟩

/-- What one `Write` does: it succeeds and all is written; or it fails and a part is. -/
theorem write_cases (w : Writer) (t : Text) :
    ((w.write t).2 = true ∧ (w.write t).1.written = w.written ++ t ∧ (w.limit = none → (w.write t).1.limit = none)) ∨
    ((w.write t).2 = false ∧ w.limit ≠ none ∧ ∃ u, u <+: t ∧ (w.write t).1.written = w.written ++ u) := by
  unfold Writer.write
  cases h : w.limit with
  | none => exact Or.inl ⟨rfl, rfl, fun _ => rfl⟩
  | some n =>
    dsimp only
    split
    · exact Or.inl ⟨rfl, rfl, (fun h => nomatch h)⟩
    · exact Or.inr ⟨rfl, (fun h => nomatch h), _, List.take_prefix .., rfl⟩

theorem execute_cases (ts : List Text) : ∀ w : Writer,
    ((execute w ts).2 = true ∧ (execute w ts).1.written = w.written ++ ts.flatten) ∨
    ((execute w ts).2 = false ∧ w.limit ≠ none ∧ ∃ u, u <+: ts.flatten ∧ (execute w ts).1.written = w.written ++ u) := by
  induction ts with
  | nil => intro w; exact Or.inl ⟨rfl, by simp [execute]⟩
  | cons t ts ih =>
    intro w
    unfold execute
    dsimp only
    rcases write_cases w t with ⟨a, b, c⟩ | ⟨a, b, u, hu, c⟩
    · rw [if_pos a]
      rcases ih (w.write t).1 with ⟨d, e⟩ | ⟨d, e, u, hu, f⟩
      · exact Or.inl ⟨d, by rw [e, b, List.append_assoc, List.flatten_cons]⟩
      · refine Or.inr ⟨d, fun h => e (c h), t ++ u, ?_, by rw [f, b, List.append_assoc]⟩
        rw [List.flatten_cons]
        exact (List.prefix_append_right_inj t).2 hu
    · rw [if_neg (by rw [a]; decide)]
      refine Or.inr ⟨rfl, b, u, ?_, c⟩
      rw [List.flatten_cons]
      exact hu.trans (List.prefix_append ..)

/-- **C34** — for all stages (however they behave) and all writers: if the conversion succeeds, exactly
the complete document was written; otherwise, either nothing was written, or the writer itself failed
while the complete document was being written, and what was written is the beginning of it. -/
theorem all_or_nothing {Doc : Type} (S : Stages Doc) (wrap : Bool) (w : Writer) :
    ((convert S wrap w).2 = .success →
      ∃ d, IsDocument S wrap d ∧ (convert S wrap w).1.written = w.written ++ d) ∧
    ((convert S wrap w).2 ≠ .success → (convert S wrap w).1.written = w.written ∨
      (w.limit ≠ none ∧ ∃ d u, IsDocument S wrap d ∧ u <+: d ∧ (convert S wrap w).1.written = w.written ++ u)) := by
  rcases convert_cases S wrap w with ⟨a, b, _⟩ | ⟨doc, title, header, content, roles, R, e⟩
  · exact ⟨fun h => absurd h b, fun _ => Or.inl (by rw [a])⟩
  · rw [e]
    unfold output
    cases wrap with
    | false =>
      rw [if_neg (by decide)]
      unfold finish
      rcases write_cases w content with ⟨a, b, _⟩ | ⟨a, b, u, hu, c⟩
      · exact ⟨fun _ => ⟨content, .bare R, b⟩, fun h => absurd (by rw [a]; rfl) h⟩
      · refine ⟨fun h => ?_, fun _ => Or.inr ⟨b, content, u, .bare R, hu, c⟩⟩
        rw [a] at h; cases h
    | true =>
      rw [if_pos rfl]
      rcases andThen_cases S.template w (fun tmpl => finish (execute w (tmpl (S.page doc title header content roles))))
        with ⟨tmpl, ht, e2⟩ | ⟨_, a, b⟩
      · rw [e2]
        unfold finish
        rcases execute_cases (tmpl (S.page doc title header content roles)) w with ⟨a, b⟩ | ⟨a, b, u, hu, c⟩
        · exact ⟨fun _ => ⟨_, .page R ht, b⟩, fun h => absurd (by rw [a]; rfl) h⟩
        · refine ⟨fun h => ?_, fun _ => Or.inr ⟨b, _, u, .page R ht, hu, c⟩⟩
          rw [a] at h; cases h
      · exact ⟨fun h => absurd h b, fun _ => Or.inl (by rw [a])⟩

/-- **C34** — with a writer that does not fail: nothing is written unless the conversion succeeds. -/
theorem failure_writes_nothing {Doc : Type} (S : Stages Doc) (wrap : Bool) (w : Writer) (hw : Reliable w)
    (h : (convert S wrap w).2 ≠ .success) : (convert S wrap w).1.written = w.written := by
  rcases (all_or_nothing S wrap w).2 h with h | ⟨h, _⟩
  · exact h
  · exact absurd hw h

theorem rendered_unique {Doc : Type} (S : Stages Doc) {doc doc' : Doc} {t h c r t' h' c' r' : Text}
    (R : Rendered S doc t h c r) (R' : Rendered S doc' t' h' c' r') :
    doc = doc' ∧ t = t' ∧ h = h' ∧ c = c' ∧ r = r' := by
  obtain ⟨x, hx, hp⟩ := R.preprocess
  obtain ⟨x', hx', hp'⟩ := R'.preprocess
  rw [hx] at hx'; cases hx'
  rw [hp] at hp'; cases hp'
  have a := R.title.symm.trans R'.title
  have b := R.render.symm.trans R'.render
  have c := R.roles.symm.trans R'.roles
  cases a; cases b; cases c
  exact ⟨rfl, rfl, rfl, rfl, rfl⟩

/-- **C34** — with a writer that does not fail, the conversion succeeds iff every stage does, and then
writes the document. -/
theorem success_iff {Doc : Type} (S : Stages Doc) (wrap : Bool) (w : Writer) (hw : Reliable w) :
    ((convert S wrap w).2 = .success ↔ ∃ d, IsDocument S wrap d) ∧
    ∀ d, IsDocument S wrap d → (convert S wrap w).1.written = w.written ++ d := by
  rcases convert_cases S wrap w with ⟨a, b, c⟩ | ⟨doc, title, header, content, roles, R, e⟩
  · exact ⟨⟨fun h => absurd h b, fun ⟨d, hd⟩ => absurd hd (c d)⟩, fun d hd => absurd hd (c d)⟩
  · have key : ∀ d, IsDocument S wrap d →
        (convert S wrap w).2 = .success ∧ (convert S wrap w).1.written = w.written ++ d := by
      intro d hd
      rw [e]
      unfold output
      cases hd with
      | bare R' =>
        obtain ⟨_, _, _, rfl, _⟩ := rendered_unique S R R'
        rw [if_neg (by decide)]
        unfold finish
        rcases write_cases w content with ⟨a, b, _⟩ | ⟨_, b, _⟩
        · rw [a]; exact ⟨rfl, b⟩
        · exact absurd hw b
      | page R' ht =>
        obtain ⟨rfl, rfl, rfl, rfl, rfl⟩ := rendered_unique S R R'
        rw [if_pos rfl, ht]
        rename_i tmpl
        show (finish (execute w _)).2 = _ ∧ (finish (execute w _)).1.written = _
        unfold finish
        rcases execute_cases (tmpl (S.page doc title header content roles)) w with ⟨a, b⟩ | ⟨_, b, _⟩
        · rw [a]; exact ⟨rfl, b⟩
        · exact absurd hw b
    refine ⟨⟨fun h => ?_, fun ⟨d, hd⟩ => (key d hd).1⟩, fun d hd => (key d hd).2⟩
    obtain ⟨d, hd, _⟩ := (all_or_nothing S wrap w).1 h
    exact ⟨d, hd⟩

/-! ### Examples and findings -/

/-- Stages that all succeed, except possibly the rendering. -/
def stages (render : Res (Text × Text)) : Stages Unit where
  preprocess := .ok []
  parse _ := .ok ()
  validate _ := .ok ()
  context _ := .ok ()
  title _ := .ok "T".toList
  sectionNumbers _ := .ok ()
  tableOfContents _ := .ok ()
  splitAndRender _ := render
  roles _ := .ok []
  template := .ok html5Article
  page _ t h c r := ⟨"article".toList, "libasciidoc".toList, [], t, [], h, r, [], c, [], [], [], true, false⟩

example : (convert (stages (.ok ([], "<p>x</p>".toList))) false ⟨['a'], none⟩) =
    (⟨"a<p>x</p>".toList, none⟩, .success) := rfl

/-- A writer that fails during the conversion keeps the beginning of the document. -/
example : (convert (stages (.ok ([], "<p>x</p>".toList))) false ⟨[], some 5⟩) =
    (⟨"<p>x<".toList, some 0⟩, .failure) := rfl

/-- Command line: the output file is emptied before the conversion, hence when the conversion fails its
previous content is lost. -/
theorem finding_cli_loses_output :
    cliFile (stages .err) true "previous content".toList = ([], .failure) := rfl

/-- Same for any conversion that fails. -/
theorem finding_cli_loses_output_always {Doc : Type} (S : Stages Doc) (wrap : Bool) (before : Text)
    (h : (cliFile S wrap before).2 ≠ .success) : (cliFile S wrap before).1 = [] :=
  failure_writes_nothing S wrap ⟨[], none⟩ rfl h

end C34

namespace C44
open Output

/-- **C44** — the page of HTML5: the body holds the header (unless disabled), then the content, unchanged,
between the two tags of the content, then the footer (unless disabled); the head, before, does not depend
on the content, the header or the footer. -/
theorem html5_body (p : Page) : ∃ head,
    (html5Article p).flatten = head ++ "\">\n".toList ++ (if p.includeHeader then p.header else []) ++
      "<div id=\"content\">\n".toList ++ p.content ++ "</div>\n".toList ++
      (if p.includeFooter then "<div id=\"footer\">\n<div id=\"footer-text\">\n".toList ++
        (if p.revNumber = [] then [] else "Version ".toList ++ p.revNumber ++ "<br>\n".toList) ++
        "Last updated ".toList ++ p.lastUpdated ++ "\n</div>\n</div>\n".toList else []) ++
      "</body>\n</html>\n".toList ∧
    ∀ (h c : Text) (a b : Bool), ∃ tail, (html5Article { p with header := h, content := c, includeHeader := a, includeFooter := b }).flatten
      = head ++ "\">\n".toList ++ tail := by
  refine ⟨(["<!DOCTYPE html>\n<html lang=\"en\">\n<head>\n<meta charset=\"UTF-8\">\n<meta http-equiv=\"X-UA-Compatible\" content=\"IE=edge\">\n<meta name=\"viewport\" content=\"width=device-width, initial-scale=1.0\">\n".toList]
  ++ ifText p.generator ["<meta name=\"generator\" content=\"".toList, p.generator, "\">\n".toList]
  ++ ifText p.description ["<meta name=\"description\" content=\"".toList, p.description, "\">\n".toList]
  ++ ifText p.authors ["<meta name=\"author\" content=\"".toList, p.authors, "\">\n".toList]
  ++ p.css.flatMap (fun c => ["<link type=\"text/css\" rel=\"stylesheet\" href=\"".toList, c, "\">\n".toList])
  ++ ["<title>".toList, p.title, "</title>\n</head>\n<body".toList]
  ++ ifText p.id [" id=\"".toList, p.id, "\"".toList]
  ++ [" class=\"".toList, p.doctype]
  ++ ifText p.roles [" ".toList, p.roles]).flatten, ?_, ?_⟩
  · unfold html5Article ifFlag
    have hv : (ifText p.revNumber ["Version ".toList, p.revNumber, "<br>\n".toList]).flatten =
        if p.revNumber = [] then [] else "Version ".toList ++ p.revNumber ++ "<br>\n".toList := by
      unfold ifText; split <;> simp
    cases p.includeHeader <;> cases p.includeFooter <;>
      simp only [List.flatten_append, List.flatten_cons, List.flatten_nil, List.append_nil, List.append_assoc,
        if_true, hv, List.nil_append, if_false, Bool.false_eq_true, reduceIte]
  · intro h c a b
    unfold html5Article ifFlag
    simp only [List.flatten_append, List.append_assoc]
    exact ⟨_, by
      simp only [List.flatten_cons, List.flatten_nil, List.append_nil, List.append_assoc]
      rfl⟩

/-- **C44** — the page of XHTML5: the body holds the header (unless disabled), then the content, unchanged,
between the two tags of the content, then the footer (unless disabled); the head, before, does not depend
on the content, the header or the footer. -/
theorem xhtml5_body (p : Page) : ∃ head,
    (xhtml5Article p).flatten = head ++ "\">\n".toList ++ (if p.includeHeader then p.header else []) ++
      "<div id=\"content\">\n".toList ++ p.content ++ "</div>\n".toList ++
      (if p.includeFooter then "<div id=\"footer\">\n<div id=\"footer-text\">\n".toList ++
        (if p.revNumber = [] then [] else "Version ".toList ++ p.revNumber ++ "<br/>\n".toList) ++
        "Last updated ".toList ++ p.lastUpdated ++ "\n</div>\n</div>\n".toList else []) ++
      "</body>\n</html>\n".toList ∧
    ∀ (h c : Text) (a b : Bool), ∃ tail, (xhtml5Article { p with header := h, content := c, includeHeader := a, includeFooter := b }).flatten
      = head ++ "\">\n".toList ++ tail := by
  refine ⟨(["<!DOCTYPE html>\n<html xmlns=\"https://www.w3.org/1999/xhtml\" lang=\"en\">\n<head>\n<meta charset=\"UTF-8\"/>\n<meta http-equiv=\"X-UA-Compatible\" content=\"IE=edge\"/>\n<meta name=\"viewport\" content=\"width=device-width, initial-scale=1.0\"/>\n".toList]
  ++ ifText p.generator ["<meta name=\"generator\" content=\"".toList, p.generator, "\"/>\n".toList]
  ++ ifText p.authors ["<meta name=\"author\" content=\"".toList, p.authors, "\"/>\n".toList]
  ++ p.css.flatMap (fun c => ["<link type=\"text/css\" rel=\"stylesheet\" href=\"".toList, c, "\"/>\n".toList])
  ++ ["<title>".toList, p.title, "</title>\n</head>\n<body".toList]
  ++ ifText p.id [" id=\"".toList, p.id, "\"".toList]
  ++ [" class=\"".toList, p.doctype]
  ++ ifText p.roles [" ".toList, p.roles]).flatten, ?_, ?_⟩
  · unfold xhtml5Article ifFlag
    have hv : (ifText p.revNumber ["Version ".toList, p.revNumber, "<br/>\n".toList]).flatten =
        if p.revNumber = [] then [] else "Version ".toList ++ p.revNumber ++ "<br/>\n".toList := by
      unfold ifText; split <;> simp
    cases p.includeHeader <;> cases p.includeFooter <;>
      simp only [List.flatten_append, List.flatten_cons, List.flatten_nil, List.append_nil, List.append_assoc,
        if_true, hv, List.nil_append, if_false, Bool.false_eq_true, reduceIte]
  · intro h c a b
    unfold xhtml5Article ifFlag
    simp only [List.flatten_append, List.append_assoc]
    exact ⟨_, by
      simp only [List.flatten_cons, List.flatten_nil, List.append_nil, List.append_assoc]
      rfl⟩

/-- **C44** — HTML5: all stylesheets are linked, in order, whatever the rest of the page. -/
theorem html5_stylesheets (p : Page) : ∃ pre post, ∀ css, html5Article { p with css := css } =
      pre ++ (css.flatMap fun c => ["<link type=\"text/css\" rel=\"stylesheet\" href=\"".toList, c, "\">\n".toList]) ++ post := by
  refine ⟨["<!DOCTYPE html>\n<html lang=\"en\">\n<head>\n<meta charset=\"UTF-8\">\n<meta http-equiv=\"X-UA-Compatible\" content=\"IE=edge\">\n<meta name=\"viewport\" content=\"width=device-width, initial-scale=1.0\">\n".toList]
  ++ ifText p.generator ["<meta name=\"generator\" content=\"".toList, p.generator, "\">\n".toList]
  ++ ifText p.description ["<meta name=\"description\" content=\"".toList, p.description, "\">\n".toList]
  ++ ifText p.authors ["<meta name=\"author\" content=\"".toList, p.authors, "\">\n".toList],
    ["<title>".toList, p.title, "</title>\n</head>\n<body".toList]
  ++ ifText p.id [" id=\"".toList, p.id, "\"".toList]
  ++ [" class=\"".toList, p.doctype]
  ++ ifText p.roles [" ".toList, p.roles]
  ++ ["\">\n".toList]
  ++ ifFlag p.includeHeader [p.header]
  ++ ["<div id=\"content\">\n".toList, p.content, "</div>\n".toList]
  ++ ifFlag p.includeFooter (["<div id=\"footer\">\n<div id=\"footer-text\">\n".toList]
    ++ ifText p.revNumber ["Version ".toList, p.revNumber, "<br>\n".toList]
    ++ ["Last updated ".toList, p.lastUpdated, "\n</div>\n</div>\n".toList])
  ++ ["</body>\n</html>\n".toList], fun css => ?_⟩
  unfold html5Article
  simp only [List.append_assoc]

/-- **C44** — XHTML5: all stylesheets are linked, in order, whatever the rest of the page. -/
theorem xhtml5_stylesheets (p : Page) : ∃ pre post, ∀ css, xhtml5Article { p with css := css } =
      pre ++ (css.flatMap fun c => ["<link type=\"text/css\" rel=\"stylesheet\" href=\"".toList, c, "\"/>\n".toList]) ++ post := by
  refine ⟨["<!DOCTYPE html>\n<html xmlns=\"https://www.w3.org/1999/xhtml\" lang=\"en\">\n<head>\n<meta charset=\"UTF-8\"/>\n<meta http-equiv=\"X-UA-Compatible\" content=\"IE=edge\"/>\n<meta name=\"viewport\" content=\"width=device-width, initial-scale=1.0\"/>\n".toList]
  ++ ifText p.generator ["<meta name=\"generator\" content=\"".toList, p.generator, "\"/>\n".toList]
  ++ ifText p.authors ["<meta name=\"author\" content=\"".toList, p.authors, "\"/>\n".toList],
    ["<title>".toList, p.title, "</title>\n</head>\n<body".toList]
  ++ ifText p.id [" id=\"".toList, p.id, "\"".toList]
  ++ [" class=\"".toList, p.doctype]
  ++ ifText p.roles [" ".toList, p.roles]
  ++ ["\">\n".toList]
  ++ ifFlag p.includeHeader [p.header]
  ++ ["<div id=\"content\">\n".toList, p.content, "</div>\n".toList]
  ++ ifFlag p.includeFooter (["<div id=\"footer\">\n<div id=\"footer-text\">\n".toList]
    ++ ifText p.revNumber ["Version ".toList, p.revNumber, "<br/>\n".toList]
    ++ ["Last updated ".toList, p.lastUpdated, "\n</div>\n</div>\n".toList])
  ++ ["</body>\n</html>\n".toList], fun css => ?_⟩
  unfold xhtml5Article
  simp only [List.append_assoc]

/-! ### Findings -/

/-- A page with a description. -/
def page (description : Text) : Page :=
  ⟨"article".toList, [], description, "T".toList, [], [], [], [], [], [], [], [], false, false⟩

/-- XHTML: the description of the document is left out. -/
theorem finding_description_xhtml (p : Page) (d : Text) :
    xhtml5Article { p with description := d } = xhtml5Article p := rfl

/-- The values in the head are not escaped: a quote in a description ends the attribute, and markup in it
becomes markup of the page. The same page is obtained with a description `a` followed by an element. -/
theorem finding_description_not_escaped (d : Text) :
    ("<meta name=\"description\" content=\"a\"><script>x</script><meta content=\"".toList ++ "\">\n".toList) <:+:
      (html5Article (page "a\"><script>x</script><meta content=\"".toList)).flatten ∧
    (d ≠ [] → ("<meta name=\"description\" content=\"".toList ++ d ++ "\">\n".toList) <:+:
      (html5Article (page d)).flatten) := by
  have key : ∀ d : Text, d ≠ [] → ("<meta name=\"description\" content=\"".toList ++ d ++ "\">\n".toList) <:+:
      (html5Article (page d)).flatten := by
    intro d hd
    unfold html5Article ifText
    rw [if_pos (show (page d).generator = [] from rfl), if_neg (show ¬ (page d).description = [] from hd)]
    have e : ["<meta name=\"description\" content=\"".toList, (page d).description, "\">\n".toList].flatten =
        "<meta name=\"description\" content=\"".toList ++ d ++ "\">\n".toList := by
      simp only [List.flatten_cons, List.flatten_nil, List.append_nil, List.append_assoc]
      rfl
    rw [← e]
    simp only [List.append_assoc, List.flatten_append, List.append_nil, List.nil_append]
    exact List.infix_append' ..
  exact ⟨key _ (by decide), key d⟩

end C44
end Verif
