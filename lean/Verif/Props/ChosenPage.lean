import Verif.Props.Chosen
import Verif.Props.WovenSample
import Verif.Props.HeadedSample
import Verif.Props.RefSample

/-!
# C71 — Documents with conditions, from the text to the page

What is shown is what would be shown if only the lines that are chosen were written.
-/
namespace Verif
namespace C71
open Chosen
open Rend hiding Item bind_ok Author expandRevision

/-- Preprocessing has one result. -/
theorem same_text {env : Env} {files : Nat} {ctx : Verif.Ctx} {src text text' : Text} {o o' : List Offset} (h : preprocess env files ctx src = .ok (text, o))
    (h' : preprocess env files ctx src = .ok (text', o')) : text = text' := by
  rw [h] at h'
  exact congrArg Prod.fst (Except.ok.inj h')

section
variable {σ τ : Type} {env : Env} {S0 : Peg.Sem τ} {elem : τ → Option RawElem} {sects within0 : τ → Bool} {api : AMap Val}

/-- **C71**: a document of sections, lists, delimited blocks and paragraphs with inline markup and references to sections, with conditions around any of
its lines, nested to any depth: the page is the one of the lines that are chosen. -/
theorem text_to_page (hE : C50.Reads env S0 elem sects within0)
    (files : Nat) (file : Text) (hapi : AMap.WF api) {S : Peg.Sem σ} {A : Peg.Code σ} {len : σ → Nat} {within : σ → Bool} (hS : C59.Code S)
    (hP : C63.Place S within) (hI : C64.ListCode S) (hlen : C49.LenCode S len) (hA : Actions.Obeys A) {s : σ} (hs : within s = false) {D : Refine.Reader} (hD : C62.ReadsBlocks D (C59.alnum S))
    {letter number : Char → Bool} {W : Walk.World} (hG : C59.Grammatical W) (hW : C65.Spoken letter number W) (c : Walk.Ctx) (fmt : Val → Text) {pa : CtxAttrs}
    (h1 : AMap.get pa.all "idprefix" = none) (h2 : AMap.get pa.all "idseparator" = none) {L : Lib} {R : Html.Rules} (hL : L.tmpl = Html.templatesOf R)
    {cfg : Config} (hcfg : C60.Article L cfg) (hT : AMap.get cfg.attrs "toc" = none) {reading : Text → List Inlined.Piece}
    {ps : List Part} (hp : Ok (C50.alnum S0) ps)
    {xs : List Sectioned.Item} (hc : chosen (given api) [] ps = Sectioned.lines xs)
    (hg : Sectioned.Good (C59.alnum S) xs) (hu : ∀ l ∈ Sectioned.lines xs, C50.Untouched l) (hr : ∀ x ∈ xs, Woven.Item.Ready letter number reading x) :
    Nonempty (C69.Stages env files (rootCtx file api) S A s D W c fmt pa L cfg (unlines (written ps))
      (Woven.page L.lower (C59.alnum S) (getBoolD cfg.attrs "unicode" true) reading xs)) := by
  obtain ⟨st⟩ := C69.text_to_page hE files (ctx := rootCtx file api) rfl hS hP hI hlen hA hs hD hG hW c fmt h1 h2 hL hcfg hT hg hu hr
  have ht : st.text = joinLF (Sectioned.lines xs) := same_text st.preprocessed (C50.document_unchanged hE files (rootCtx file api) rfl (Sectioned.lines xs) hu)
  exact ⟨{ st with preprocessed := by rw [ht, ← hc]; exact chosen_remain hE files file hapi hp }⟩

/-- **C71**, with a table of contents. -/
theorem outlined_to_page (hE : C50.Reads env S0 elem sects within0)
    (files : Nat) (file : Text) (hapi : AMap.WF api) {S : Peg.Sem σ} {A : Peg.Code σ} {len : σ → Nat} {within : σ → Bool} (hS : C59.Code S)
    (hP : C63.Place S within) (hI : C64.ListCode S) (hlen : C49.LenCode S len) (hA : Actions.Obeys A) {s : σ} (hs : within s = false) {D : Refine.Reader} (hD : C62.ReadsBlocks D (C59.alnum S))
    {letter number : Char → Bool} {W : Walk.World} (hG : C59.Grammatical W) (hW : C65.Spoken letter number W) (c : Walk.Ctx) (fmt : Val → Text) {pa : CtxAttrs}
    (h1 : AMap.get pa.all "idprefix" = none) (h2 : AMap.get pa.all "idseparator" = none) {depth : Int} (h3 : pa.getAsIntWithDefault "toclevels" 2 = depth)
    {L : Lib} {R : Html.Rules} (hL : L.tmpl = Html.templatesOf R)
    {cfg : Config} (hcfg : C60.Article L cfg) (hT : C68.Wanted cfg.attrs) (ht : AMap.get cfg.attrs "toc-title" = none ∨ ∃ t, AMap.get cfg.attrs "toc-title" = some (.str t))
    {reading : Text → List Inlined.Piece} {ps : List Part} (hp : Ok (C50.alnum S0) ps)
    {xs : List Sectioned.Item} (hc : chosen (given api) [] ps = Sectioned.lines xs)
    (hg : Sectioned.Good (C59.alnum S) xs) (hu : ∀ l ∈ Sectioned.lines xs, C50.Untouched l) (hr : ∀ x ∈ xs, Woven.Item.Ready letter number reading x)
    (hgap : Outlined.Gapless (Outlined.levels depth xs)) :
    Nonempty (C69.Stages env files (rootCtx file api) S A s D W c fmt pa L cfg (unlines (written ps))
      (Woven.outlinedPage L.lower (C59.alnum S) (getBoolD cfg.attrs "unicode" true) (C68.tocName cfg.attrs) depth reading xs)) := by
  obtain ⟨st⟩ := C69.outlined_to_page hE files (ctx := rootCtx file api) rfl hS hP hI hlen hA hs hD hG hW c fmt h1 h2 h3 hL hcfg hT ht hg hu hr hgap
  have ht : st.text = joinLF (Sectioned.lines xs) := same_text st.preprocessed (C50.document_unchanged hE files (rootCtx file api) rfl (Sectioned.lines xs) hu)
  exact ⟨{ st with preprocessed := by rw [ht, ← hc]; exact chosen_remain hE files file hapi hp }⟩

/-- **C71**, with a header. -/
theorem headed_to_page (hE : C50.Reads env S0 elem sects within0)
    (files : Nat) (file : Text) (hapi : AMap.WF api) {S : Peg.Sem σ} {A : Peg.Code σ} {len : σ → Nat} {within allowed : σ → Bool} (hS : C59.Code S)
    (hP : C63.Place S within) (hH : C66.HeadCode S allowed within) (hI : C64.ListCode S) (hlen : C49.LenCode S len) (hA : Actions.Obeys A) {s : σ} (hs : within s = false) (ha : allowed s = true)
    {D : Refine.Reader} (hD : C62.ReadsBlocks D (C59.alnum S)) {W : Walk.World} (hW : C59.Grammatical W) (c : Walk.Ctx) (fmt : Val → Text) {pa : CtxAttrs}
    (h1 : AMap.get pa.all "idprefix" = none) (h2 : AMap.get pa.all "idseparator" = none) {L : Lib} {R : Html.Rules} (hL : L.tmpl = Html.templatesOf R) {cfg : Config} (hcfg : C66.Plain L cfg)
    {ps : List Part} (hp : Ok (C50.alnum S0) ps) {d : Headed.Document} (hc : chosen (given api) [] ps = d.lines)
    (hd : d.Ok (C59.alnum S)) (hu : ∀ l ∈ d.lines, C50.Untouched l) (hpl : ∀ x ∈ d.body, x.Plain) :
    Nonempty (C66.Stages env files (rootCtx file api) S A s D W c fmt pa L cfg (unlines (written ps))
      (if cfg.wrap then Headed.page L.lower (C59.alnum S) (C66.settings L R cfg) d else Headed.content L.lower (C59.alnum S) (getBoolD cfg.attrs "unicode" true) d.body)) := by
  obtain ⟨st⟩ := C66.text_to_page hE files (ctx := rootCtx file api) rfl hS hP hH hI hlen hA hs ha hD hW c fmt h1 h2 hL hcfg hd hu hpl
  have ht : st.text = joinLF d.lines := same_text st.preprocessed (C50.document_unchanged hE files (rootCtx file api) rfl d.lines hu)
  exact ⟨{ st with preprocessed := by rw [ht, ← hc]; exact chosen_remain hE files file hapi hp }⟩

/-- The attributes given from outside, as the preprocessor has them. -/
def values (outer : AMap Text) : AMap Val := outer.map (fun p => (p.1, .str p.2))

/-- **C71**, with references to the attributes that the conditions are upon: the attributes `outer` are given from outside; these and the declarations decide
which lines are chosen, and what the references show. -/
theorem referenced_to_page (hE : C50.Reads env S0 elem sects within0)
    (files : Nat) (file : Text) {S : Peg.Sem σ} {A : Peg.Code σ} (hS : C59.Code S) (hA : Actions.Obeys A)
    (hN : ∀ s st t, (S.pred 102 s st t).1 = true) (s : σ)
    (R : Refine.Reader) {W : Walk.World} (hW : C67.Grammatical S.letter S.number W) {L : Lib} (hL : L.tmpl.paragraph = Tmpl.Html5.paragraphTmpl)
    (outer : AMap Text) (hwf : AMap.WF outer) {cfg : Config} (hg : cfg.attrs = C67.settings outer) (hcfg : C60.Article L cfg)
    {ps : List Part} (hp : Ok (C50.alnum S0) ps) {xs : List Referenced.Item} (hc : chosen (fun n => (AMap.get outer (String.ofList n)).isSome) [] ps = Referenced.lines xs)
    (hx : Referenced.Good (C59.alnum S) xs)
    (hu : ∀ l ∈ Referenced.lines xs, C50.Untouched l) (hf : Referenced.Fits (Referenced.State.start (fun n => AMap.get outer n)) xs) :
    Nonempty (C67.Stages env files (rootCtx file (values outer)) S A s R W outer L cfg (unlines (written ps))
      (Referenced.page (getBoolD cfg.attrs "unicode" true) (Referenced.State.start (fun n => AMap.get outer n)) xs)) := by
  obtain ⟨st⟩ := C67.text_to_page hE files (ctx := rootCtx file (values outer)) rfl hS hA hN s R hW hL outer hg hcfg hx hu hf
  have ht : st.text = joinLF (Referenced.lines xs) := same_text st.preprocessed (C50.document_unchanged hE files (rootCtx file (values outer)) rfl (Referenced.lines xs) hu)
  have hapi : AMap.WF (values outer) := by
    have e : (values outer).map Prod.fst = outer.map Prod.fst := by
      unfold values
      rw [List.map_map]
      rfl
    unfold AMap.WF at hwf ⊢
    rw [e]
    exact hwf
  have e : given (values outer) = fun n => (AMap.get outer (String.ofList n)).isSome := by
    funext n
    unfold given values
    rw [C67.get_map Val.str]
    cases AMap.get outer (String.ofList n) <;> rfl
  have h := chosen_remain hE files file hapi hp
  rw [e, hc] at h
  exact ⟨{ st with preprocessed := by rw [ht]; exact h }⟩

end

/-! ### The hypotheses are met -/

/-- A line that is written as it is. -/
theorem line_ok {al : Char → Bool} {l : Text} (h : (l.all (fun c => !Grammar.isEol c) && decide (utf8Len l ≤ 65535) &&
    ["include::", "ifdef::", "ifndef::", "ifeval::[", "endif::"].all (fun k => !k.toList.isPrefixOf l)) = true) (hc : l.head? ≠ some ':') : (Part.line l).Ok al :=
  ⟨C50.untouched_of h, hc⟩

theorem lines_ok {al : Char → Bool} : ∀ {ls : List Text}, (ls.all (fun l => l.all (fun c => !Grammar.isEol c) && decide (utf8Len l ≤ 65535) &&
    ["include::", "ifdef::", "ifndef::", "ifeval::[", "endif::"].all (fun k => !k.toList.isPrefixOf l) && decide (l.head? ≠ some ':'))) = true → Ok al (ls.map .line)
  | [], _ => trivial
  | l :: ls, h => by
    rw [List.all_cons, Bool.and_eq_true, Bool.and_eq_true] at h
    exact ⟨line_ok h.1.1 (of_decide_eq_true h.1.2), lines_ok h.2⟩

theorem ok_append {al : Char → Bool} : ∀ {a b : List Part}, Ok al a → Ok al b → Ok al (a ++ b)
  | [], _, _, hb => hb
  | _ :: _, _, ha, hb => ⟨ha.1, ok_append ha.2 hb⟩

theorem directive_ok {kw n c g : Text} (h : (n.all (fun x => !['\r', '\n', ' ', '['].contains x) && c.all (fun x => !['\r', '\n', ']'].contains x) && g.all Grammar.isBlank &&
    decide (utf8Len (directive kw n c g) ≤ 65535)) = true) : DirectiveOk kw n c g := by
  simp only [Bool.and_eq_true, List.all_eq_true, Bool.not_eq_true', decide_eq_true_eq] at h
  obtain ⟨⟨⟨h1, h2⟩, h3⟩, h4⟩ := h
  refine ⟨fun x hx hm => ?_, fun x hx hm => ?_, fun x hx => ?_, h4⟩
  · exact absurd (List.contains_iff_mem.mpr hm) (by rw [h1 x hx]; decide)
  · exact absurd (List.contains_iff_mem.mpr hm) (by rw [h2 x hx]; decide)
  · have h := h3 x hx
    rw [← C62.isBlank_iff, Bool.or_eq_true, beq_iff_eq, beq_iff_eq] at h
    exact h

/-- The lines of the document of C69: those of the first section are written under a condition that holds, with others around them under conditions that do not. -/
def parts : List Part :=
  let ls := Sectioned.lines C69.sample
  [.short false "manual".toList "no manual".toList []] ++ (ls.take 2).map .line ++
  [.when true "manual".toList " ".toList ((ls.drop 2).take 4 |>.map .line) "manual".toList [],
   .when false "manual".toList [] [.line "----".toList, .when true "manual".toList [] [.line "hidden".toList] [] [], .line "hidden".toList] [] "\t".toList] ++
  (ls.drop 6).map .line

theorem parts_written : unlines (written parts) =
    ("ifndef::manual[no manual]\nIt's *very _easy_*:\n\nifdef::manual[] \n== Setup\n* Unpack & run\n* Done\n\nendif::manual[]\n" ++
      "ifndef::manual[]\n----\nifdef::manual[]\nhidden\nendif::[]\nhidden\nendif::[]\t\n" ++
      "=== Setup\n----\na *b*\n----\nH~2~O\n\n== First run\nSee <<_Setup_2>>, *<<First run>>*, <<_Setup,over there>> and <<none>>\n").toList := by decide +kernel

theorem parts_ok (al : Char → Bool) : Ok al parts := by
  refine ok_append (ok_append (ok_append ⟨⟨by decide, by decide, directive_ok (by decide +kernel)⟩, trivial⟩ (lines_ok (by decide +kernel))) ?_) (lines_ok (by decide +kernel))
  refine ⟨⟨by decide, directive_ok (by decide +kernel), lines_ok (by decide +kernel), directive_ok (by decide +kernel)⟩, ⟨by decide, directive_ok (by decide +kernel), ?_, directive_ok (by decide +kernel)⟩, trivial⟩
  exact ⟨line_ok (by decide +kernel) (by decide), ⟨by decide, directive_ok (by decide +kernel), ⟨line_ok (by decide +kernel) (by decide), trivial⟩, directive_ok (by decide +kernel)⟩,
    line_ok (by decide +kernel) (by decide), trivial⟩

/-- From what is written to what is shown. -/
theorem sample_to_page (c : Walk.Ctx) (fmt : Val → Text) : Nonempty (C69.Stages C50.rawEnv 0 (rootCtx [] [("manual", .str [])]) C63.sem C62.acts 0 C62.reader C65.world c fmt ⟨[], []⟩
    (C51.lib Html.html) C60.plainCfg (unlines (written parts)) C69.sampleHtml) := by
  have h := text_to_page C50.rawEnv_reads 0 [] (api := [("manual", .str [])]) (by unfold AMap.WF; decide) C63.sem_code C63.sem_place C63.sem_list C63.sem_lenCode C62.acts_obey (s := 0) rfl (D := C62.reader) C62.reader_reads
    C69.world_grammatical C65.world_spoken c fmt (pa := ⟨[], []⟩) rfl rfl (L := C51.lib Html.html) (R := Html.html) rfl
    (C60.plainCfg_article _) rfl (parts_ok _) (xs := C69.sample) (by decide +kernel) C69.sample_good (C68.untouched (by decide +kernel)) C69.sample_ready
  rw [show Woven.page (C51.lib Html.html).lower (C59.alnum C63.sem) (getBoolD C60.plainCfg.attrs "unicode" true) C69.reading C69.sample = C69.sampleHtml by decide +kernel] at h
  exact h

/-! ### Declarations that are not chosen -/

/-- A declaration, and lines under conditions upon the attribute that it sets and upon one that is given from outside; then a declaration that is not chosen, and a line
under a condition upon what it sets. -/
def declared : List Part :=
  [.declare "version".toList ":version: 1.2".toList, .line [],
   .when true "version".toList [] [.when false "product".toList [] [.line "hidden".toList] [] [], .short true "product".toList "Uses {product} {version}".toList []] [] [],
   .line [],
   .when true "nope".toList [] [.declare "more".toList ":more: 3".toList] [] [],
   .short true "more".toList "More {more}".toList []]

def shownItems : List Referenced.Item :=
  [.declare "version" [' '] (C67.chars "1.2"), .blank [], .para ⟨C67.chars "Uses " ++ [.ref "product"] ++ C67.chars " " ++ [.ref "version"], []⟩ [], .blank [],
   .para ⟨C67.chars "More " ++ [.ref "more"], []⟩ []]

theorem declared_written : unlines (written declared) =
    (":version: 1.2\n\nifdef::version[]\nifndef::product[]\nhidden\nendif::[]\nifdef::product[Uses {product} {version}]\nendif::[]\n\n" ++
      "ifdef::nope[]\n:more: 3\nendif::[]\nifdef::more[More {more}]\n").toList := by decide +kernel

theorem declared_ok : Ok (C50.alnum C50.rawSem) declared := by
  refine ⟨⟨C50.untouched_of (by decide +kernel), ⟨'v', "ersion".toList, by decide +kernel, .inl (by decide +kernel), by decide +kernel⟩, .inr ⟨[' '], "1.2".toList, by decide, ?_, by decide +kernel, ?_, by decide +kernel⟩⟩,
    line_ok (by decide) (by decide), ⟨by decide, directive_ok (by decide +kernel), ⟨⟨by decide, directive_ok (by decide +kernel), ⟨line_ok (by decide +kernel) (by decide), trivial⟩, directive_ok (by decide +kernel)⟩,
      ⟨by decide, by decide, directive_ok (by decide +kernel)⟩, trivial⟩, directive_ok (by decide +kernel)⟩, line_ok (by decide) (by decide),
    ⟨by decide, directive_ok (by decide +kernel), ⟨⟨C50.untouched_of (by decide +kernel), ⟨'m', "ore".toList, by decide +kernel, .inl (by decide +kernel), by decide +kernel⟩,
      .inr ⟨[' '], "3".toList, by decide, ?_, by decide +kernel, ?_, by decide +kernel⟩⟩, trivial⟩, directive_ok (by decide +kernel)⟩, ⟨by decide, by decide, directive_ok (by decide +kernel)⟩, trivial⟩
  · intro c hc; exact .inl (List.mem_singleton.mp hc)
  · intro c hc; rw [show "1.2".toList.getLast? = some '2' by decide +kernel] at hc; cases hc; decide
  · intro c hc; exact .inl (List.mem_singleton.mp hc)
  · intro c hc; rw [show "3".toList.getLast? = some '3' by decide +kernel] at hc; cases hc; decide

theorem shown_good : Referenced.Good (C59.alnum C67.sem) shownItems := by
  have ok : ∀ l : Paragraphs.Line, (l.full.all (fun c => !Grammar.isEol c) && l.text.any (fun c => !C48.isSpace c) && l.trail.all Grammar.isBlank &&
      (l.text.getLast?.all (fun c => !Grammar.isBlank c))) = true → l.Ok := by
    intro l h
    simp only [Bool.and_eq_true] at h
    obtain ⟨⟨⟨h1, h2⟩, h3⟩, h4⟩ := h
    refine ⟨fun c hc => by simpa using List.all_eq_true.mp h1 c hc, ?_, fun c hc => List.all_eq_true.mp h3 c hc, fun c hc => ?_⟩
    · obtain ⟨c, hc, h⟩ := List.any_eq_true.mp h2
      exact ⟨c, hc, by simpa using h⟩
    · rw [hc] at h4; simpa using h4
  have op : ∀ (l : Paragraphs.Line) (c : Char) (r : Text), l.full = c :: r → C59.alnum C67.sem c = true →
      (match r with | d :: _ => !(d == '.' || d == ')') | [] => true) = true →
      (¬ [':', ':'] <:+: l.full) → (∀ p ∈ C48.admonitions, ¬ p <+: l.full) → Paragraphs.Opens (C59.alnum C67.sem) l := by
    intro l c r h1 h2 h3 h4 h5
    refine ⟨⟨c, r, h1, h2, fun d x _ hd hp => ?_⟩, h4, h5⟩
    obtain ⟨z, rfl⟩ := hp
    rcases hd with rfl | rfl <;> exact absurd (show false = true from h3) (by decide)
  refine ⟨⟨C67.name_of _ (by decide +kernel), by decide +kernel, by decide, by decide,
      C67.value_ok (by decide +kernel) (by decide +kernel) (by decide +kernel) (by decide +kernel) (by decide +kernel)⟩,
    by decide, ⟨ok _ (by decide +kernel), ?_, by simp, C67.tok_ok (by decide +kernel)⟩, by decide +kernel, trivial, by decide,
    ⟨ok _ (by decide +kernel), ?_, by simp, C67.tok_ok (by decide +kernel)⟩, by decide +kernel, trivial, trivial⟩
  · exact op _ 'U' _ rfl (by decide) (by decide +kernel) (by decide +kernel) (by decide +kernel)
  · exact op _ 'M' _ rfl (by decide) (by decide +kernel) (by decide +kernel) (by decide +kernel)

theorem shown_lines : ∀ l ∈ Referenced.lines shownItems, C50.Untouched l := by
  have h : (Referenced.lines shownItems).all (fun l => l.all (fun c => !Grammar.isEol c) && decide (utf8Len l ≤ 65535) &&
    ["include::", "ifdef::", "ifndef::", "ifeval::[", "endif::"].all (fun k => !k.toList.isPrefixOf l)) = true := by decide +kernel
  exact fun l hl => C50.untouched_of (List.all_eq_true.mp h l hl)

theorem shown_fits : Referenced.Fits (Referenced.State.start (fun n => AMap.get C67.given n)) shownItems := by
  refine ⟨?_, trivial, ⟨?_, ?_⟩, trivial, ⟨?_, ?_⟩, trivial⟩ <;> decide +kernel

/-- **C71, finding**: a declaration between `ifdef` and `endif` is taken into account by the conditions after it even if it is not chosen, but not by the references: the
last line is chosen because `more` is set, and `{more}` is shown as it is written because it has no value. -/
theorem finding_hidden_declaration (R : Refine.Reader) : Nonempty (C67.Stages C50.rawEnv 0 (rootCtx [] [("product", .str "Lib".toList)]) C67.sem C59.acts () R C59.world C67.given (C51.lib Html.html) C67.cfg
    (unlines (written declared)) ("<div class=\"paragraph\">\n<p>Uses Lib 1.2</p>\n</div>\n<div class=\"paragraph\">\n<p>More {more}</p>\n</div>\n").toList) := by
  have h := referenced_to_page C50.rawEnv_reads 0 [] C67.sem_code C59.acts_obey (fun _ _ _ => rfl) () R C67.world_grammatical C60.templates.1 C67.given (by unfold AMap.WF; decide)
    (cfg := C67.cfg) rfl (C67.cfg_article _) declared_ok (xs := shownItems) (by decide +kernel) shown_good shown_lines shown_fits
  rw [show Referenced.page (getBoolD C67.cfg.attrs "unicode" true) (Referenced.State.start (fun n => AMap.get C67.given n)) shownItems =
    ("<div class=\"paragraph\">\n<p>Uses Lib 1.2</p>\n</div>\n<div class=\"paragraph\">\n<p>More {more}</p>\n</div>\n").toList by decide +kernel] at h
  exact h

end C71
end Verif
