import Verif.Model.Basic

/-!
Writing the output: `libasciidoc.go` (Convert), `pkg/renderer/sgml/sgml.go` (Render), the templates
`pkg/renderer/sgml/html5/article.go` and `xhtml5/article.go`, and `cmd/libasciidoc/root_cmd.go`.

The stages before writing are parameters: each of them may succeed, fail or panic, in any way.
-/
namespace Verif
namespace Output

/-- The result of a call. -/
inductive Res (α : Type) where
  | ok (a : α)
  | err
  | panic

/-- The writer given by the caller: what it has received, and how many more characters it accepts (`none`:
no limit).  A call to `Write` with more than that is cut and fails. -/
structure Writer where
  written : Text
  limit : Option Nat

/-- One call to `Write`: the writer after it, and whether it succeeded. -/
def Writer.write (w : Writer) (t : Text) : Writer × Bool :=
  match w.limit with
  | none => (⟨w.written ++ t, none⟩, true)
  | some n =>
    if t.length ≤ n then (⟨w.written ++ t, some (n - t.length)⟩, true)
    else (⟨w.written ++ t.take n, some 0⟩, false)

/-- The data given to the template (sgml.go:97-131). -/
structure Page where
  doctype : Text
  generator : Text
  description : Text
  title : Text
  authors : Text
  header : Text
  roles : Text
  id : Text
  content : Text
  revNumber : Text
  lastUpdated : Text
  css : List Text
  includeHeader : Bool
  includeFooter : Bool

/-- Go template `{{ if .X }}…{{ end }}` on a string: taken iff not empty. -/
def ifText (x : Text) (chunks : List Text) : List Text := if x = [] then [] else chunks

/-- Go template `{{ if .X }}…{{ end }}` on a boolean. -/
def ifFlag (b : Bool) (chunks : List Text) : List Text := if b then chunks else []

/-- html5/article.go:4-30: the pieces written by the template, in order. -/
def html5Article (p : Page) : List Text :=
  ["<!DOCTYPE html>\n<html lang=\"en\">\n<head>\n<meta charset=\"UTF-8\">\n<meta http-equiv=\"X-UA-Compatible\" content=\"IE=edge\">\n<meta name=\"viewport\" content=\"width=device-width, initial-scale=1.0\">\n".toList]
  ++ ifText p.generator ["<meta name=\"generator\" content=\"".toList, p.generator, "\">\n".toList]
  ++ ifText p.description ["<meta name=\"description\" content=\"".toList, p.description, "\">\n".toList]
  ++ ifText p.authors ["<meta name=\"author\" content=\"".toList, p.authors, "\">\n".toList]
  ++ p.css.flatMap (fun c => ["<link type=\"text/css\" rel=\"stylesheet\" href=\"".toList, c, "\">\n".toList])
  ++ ["<title>".toList, p.title, "</title>\n</head>\n<body".toList]
  ++ ifText p.id [" id=\"".toList, p.id, "\"".toList]
  ++ [" class=\"".toList, p.doctype]
  ++ ifText p.roles [" ".toList, p.roles]
  ++ ["\">\n".toList]
  ++ ifFlag p.includeHeader [p.header]
  ++ ["<div id=\"content\">\n".toList, p.content, "</div>\n".toList]
  ++ ifFlag p.includeFooter (["<div id=\"footer\">\n<div id=\"footer-text\">\n".toList]
    ++ ifText p.revNumber ["Version ".toList, p.revNumber, "<br>\n".toList]
    ++ ["Last updated ".toList, p.lastUpdated, "\n</div>\n</div>\n".toList])
  ++ ["</body>\n</html>\n".toList]

/-- xhtml5/article.go:4-31. -/
def xhtml5Article (p : Page) : List Text :=
  ["<!DOCTYPE html>\n<html xmlns=\"https://www.w3.org/1999/xhtml\" lang=\"en\">\n<head>\n<meta charset=\"UTF-8\"/>\n<meta http-equiv=\"X-UA-Compatible\" content=\"IE=edge\"/>\n<meta name=\"viewport\" content=\"width=device-width, initial-scale=1.0\"/>\n".toList]
  ++ ifText p.generator ["<meta name=\"generator\" content=\"".toList, p.generator, "\"/>\n".toList]
  ++ ifText p.authors ["<meta name=\"author\" content=\"".toList, p.authors, "\"/>\n".toList]
  ++ p.css.flatMap (fun c => ["<link type=\"text/css\" rel=\"stylesheet\" href=\"".toList, c, "\"/>\n".toList])
  ++ ["<title>".toList, p.title, "</title>\n</head>\n<body".toList]
  ++ ifText p.id [" id=\"".toList, p.id, "\"".toList]
  ++ [" class=\"".toList, p.doctype]
  ++ ifText p.roles [" ".toList, p.roles]
  ++ ["\">\n".toList]
  ++ ifFlag p.includeHeader [p.header]
  ++ ["<div id=\"content\">\n".toList, p.content, "</div>\n".toList]
  ++ ifFlag p.includeFooter (["<div id=\"footer\">\n<div id=\"footer-text\">\n".toList]
    ++ ifText p.revNumber ["Version ".toList, p.revNumber, "<br/>\n".toList]
    ++ ["Last updated ".toList, p.lastUpdated, "\n</div>\n</div>\n".toList])
  ++ ["</body>\n</html>\n".toList]

/-- `tmpl.Execute(output, …)`: the pieces are written one by one, up to the first failure. -/
def execute (w : Writer) : List Text → Writer × Bool
  | [] => (w, true)
  | t :: ts =>
    let r := w.write t
    if r.2 then execute r.1 ts else (r.1, false)

/-- The stages of a conversion: any functions that may fail or panic. -/
structure Stages (Doc : Type) where
  /-- libasciidoc.go:63 -/
  preprocess : Res Text
  /-- libasciidoc.go:69 -/
  parse : Text → Res Doc
  /-- libasciidoc.go:77 -/
  validate : Doc → Res Unit
  /-- renderer.go:13-22 and sgml.go:34 `newContext` (which panics on a nil map) -/
  context : Doc → Res Unit
  /-- sgml.go:43 -/
  title : Doc → Res Text
  /-- sgml.go:74 -/
  sectionNumbers : Doc → Res Unit
  /-- sgml.go:79 -/
  tableOfContents : Doc → Res Unit
  /-- sgml.go:83: header and content -/
  splitAndRender : Doc → Res (Text × Text)
  /-- sgml.go:87 -/
  roles : Doc → Res Text
  /-- sgml.go:93: the article template, for a given page -/
  template : Res (Page → List Text)
  /-- sgml.go:117-131: the page, from title, header, content and roles -/
  page : Doc → Text → Text → Text → Text → Page

/-- How a conversion ends. -/
inductive Outcome where
  | success | failure | panic
deriving DecidableEq, Repr

/-- Running a stage before the rest. -/
def Res.andThen {α : Type} (r : Res α) (w : Writer) (k : α → Writer × Outcome) : Writer × Outcome :=
  match r with
  | .ok a => k a
  | .err => (w, .failure)
  | .panic => (w, .panic)

/-- The end of a write. -/
def finish (r : Writer × Bool) : Writer × Outcome := (r.1, if r.2 then .success else .failure)

/-- sgml.go:91-142: writing, when all is rendered. -/
def output {Doc : Type} (S : Stages Doc) (wrap : Bool) (w : Writer) (doc : Doc) (title header content roles : Text) :
    Writer × Outcome :=
  if wrap then
    S.template.andThen w (fun tmpl => finish (execute w (tmpl (S.page doc title header content roles))))
  else finish (w.write content)

/-- libasciidoc.go:50-98 `Convert` with sgml.go:18-145 `Render`: the stages in order. -/
def convert {Doc : Type} (S : Stages Doc) (wrap : Bool) (w : Writer) : Writer × Outcome :=
  S.preprocess.andThen w fun t =>
  (S.parse t).andThen w fun doc =>
  (S.validate doc).andThen w fun _ =>
  (S.context doc).andThen w fun _ =>
  (S.title doc).andThen w fun title =>
  (S.sectionNumbers doc).andThen w fun _ =>
  (S.tableOfContents doc).andThen w fun _ =>
  (S.splitAndRender doc).andThen w fun hc =>
  (S.roles doc).andThen w fun roles =>
  output S wrap w doc title hc.1 hc.2 roles

/-- root_cmd.go:58-72, 95-120, for one source and an output file: `os.Create` empties the file, then the
conversion writes to it; the content of the output file afterwards. -/
def cliFile {Doc : Type} (S : Stages Doc) (wrap : Bool) (_before : Text) : Text × Outcome :=
  let r := convert S wrap ⟨[], none⟩
  (r.1.written, r.2)

end Output
end Verif
