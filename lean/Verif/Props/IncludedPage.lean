import Verif.Props.Included
import Verif.Props.ChosenPage

/-!
# C72 — Documents in several files, from the text to the page

What is shown is what would be shown if the lines of all the files were written in one.
-/
namespace Verif
namespace C72
open Included
open Chosen (keyword directive holds DirectiveOk)
open C71 (given same_text values)
open Rend hiding Item bind_ok Author expandRevision

section
variable {σ τ : Type} {env : Env} {S0 : Peg.Sem τ} {elem : τ → Option RawElem} {sects within0 : τ → Bool} {api : AMap Val}

/-- **C72**: a document of sections, lists, delimited blocks and paragraphs with inline markup and references to sections, in several files that include each other to any depth, with
conditions around any of its lines: the page is the one of the lines that it amounts to. -/
theorem text_to_page (hE : C50.Reads env S0 elem sects within0) (hI0 : Includes S0 elem) (hb : C39.ClassOK env.alnum)
    (files : Nat) (file : Text) (hapi : AMap.WF api) {S : Peg.Sem σ} {A : Peg.Code σ} {len : σ → Nat} {within : σ → Bool} (hS : C59.Code S)
    (hP : C63.Place S within) (hI : C64.ListCode S) (hlen : C49.LenCode S len) (hA : Actions.Obeys A) {s : σ} (hs : within s = false) {D : Refine.Reader} (hD : C62.ReadsBlocks D (C59.alnum S))
    {letter number : Char → Bool} {W : Walk.World} (hG : C59.Grammatical W) (hW : C65.Spoken letter number W) (c : Walk.Ctx) (fmt : Val → Text) {pa : CtxAttrs}
    (h1 : AMap.get pa.all "idprefix" = none) (h2 : AMap.get pa.all "idseparator" = none) {L : Lib} {R : Html.Rules} (hL : L.tmpl = Html.templatesOf R)
    {cfg : Config} (hcfg : C60.Article L cfg) (hT : AMap.get cfg.attrs "toc" = none) {reading : Text → List Inlined.Piece}
    {ps : List Part} (hp : Ok env (C50.alnum S0) file false ps) (hk : depth ps ≤ files)
    {xs : List Sectioned.Item} (hc : lines (given api) [] 0 ps = Sectioned.lines xs)
    (hg : Sectioned.Good (C59.alnum S) xs) (hu : ∀ l ∈ Sectioned.lines xs, C50.Untouched l) (hr : ∀ x ∈ xs, Woven.Item.Ready letter number reading x) :
    Nonempty (C69.Stages env files (rootCtx file api) S A s D W c fmt pa L cfg (unlines (written ps))
      (Woven.page L.lower (C59.alnum S) (getBoolD cfg.attrs "unicode" true) reading xs)) := by
  obtain ⟨st⟩ := C69.text_to_page hE files (ctx := rootCtx file api) rfl hS hP hI hlen hA hs hD hG hW c fmt h1 h2 hL hcfg hT hg hu hr
  have ht : st.text = joinLF (Sectioned.lines xs) := same_text st.preprocessed (C50.document_unchanged hE files (rootCtx file api) rfl (Sectioned.lines xs) hu)
  exact ⟨{ st with preprocessed := by rw [ht, ← hc]; exact inclusions_replaced hE hI0 hb files file hapi hp hk }⟩

/-- **C72**, with a table of contents. -/
theorem outlined_to_page (hE : C50.Reads env S0 elem sects within0) (hI0 : Includes S0 elem) (hb : C39.ClassOK env.alnum)
    (files : Nat) (file : Text) (hapi : AMap.WF api) {S : Peg.Sem σ} {A : Peg.Code σ} {len : σ → Nat} {within : σ → Bool} (hS : C59.Code S)
    (hP : C63.Place S within) (hI : C64.ListCode S) (hlen : C49.LenCode S len) (hA : Actions.Obeys A) {s : σ} (hs : within s = false) {D : Refine.Reader} (hD : C62.ReadsBlocks D (C59.alnum S))
    {letter number : Char → Bool} {W : Walk.World} (hG : C59.Grammatical W) (hW : C65.Spoken letter number W) (c : Walk.Ctx) (fmt : Val → Text) {pa : CtxAttrs}
    (h1 : AMap.get pa.all "idprefix" = none) (h2 : AMap.get pa.all "idseparator" = none) {levels : Int} (h3 : pa.getAsIntWithDefault "toclevels" 2 = levels)
    {L : Lib} {R : Html.Rules} (hL : L.tmpl = Html.templatesOf R)
    {cfg : Config} (hcfg : C60.Article L cfg) (hT : C68.Wanted cfg.attrs) (ht : AMap.get cfg.attrs "toc-title" = none ∨ ∃ t, AMap.get cfg.attrs "toc-title" = some (.str t))
    {reading : Text → List Inlined.Piece} {ps : List Part} (hp : Ok env (C50.alnum S0) file false ps) (hk : depth ps ≤ files)
    {xs : List Sectioned.Item} (hc : lines (given api) [] 0 ps = Sectioned.lines xs)
    (hg : Sectioned.Good (C59.alnum S) xs) (hu : ∀ l ∈ Sectioned.lines xs, C50.Untouched l) (hr : ∀ x ∈ xs, Woven.Item.Ready letter number reading x)
    (hgap : Outlined.Gapless (Outlined.levels levels xs)) :
    Nonempty (C69.Stages env files (rootCtx file api) S A s D W c fmt pa L cfg (unlines (written ps))
      (Woven.outlinedPage L.lower (C59.alnum S) (getBoolD cfg.attrs "unicode" true) (C68.tocName cfg.attrs) levels reading xs)) := by
  obtain ⟨st⟩ := C69.outlined_to_page hE files (ctx := rootCtx file api) rfl hS hP hI hlen hA hs hD hG hW c fmt h1 h2 h3 hL hcfg hT ht hg hu hr hgap
  have ht : st.text = joinLF (Sectioned.lines xs) := same_text st.preprocessed (C50.document_unchanged hE files (rootCtx file api) rfl (Sectioned.lines xs) hu)
  exact ⟨{ st with preprocessed := by rw [ht, ← hc]; exact inclusions_replaced hE hI0 hb files file hapi hp hk }⟩

/-- **C72**, with a header. -/
theorem headed_to_page (hE : C50.Reads env S0 elem sects within0) (hI0 : Includes S0 elem) (hb : C39.ClassOK env.alnum)
    (files : Nat) (file : Text) (hapi : AMap.WF api) {S : Peg.Sem σ} {A : Peg.Code σ} {len : σ → Nat} {within allowed : σ → Bool} (hS : C59.Code S)
    (hP : C63.Place S within) (hH : C66.HeadCode S allowed within) (hI : C64.ListCode S) (hlen : C49.LenCode S len) (hA : Actions.Obeys A) {s : σ} (hs : within s = false) (ha : allowed s = true)
    {D : Refine.Reader} (hD : C62.ReadsBlocks D (C59.alnum S)) {W : Walk.World} (hW : C59.Grammatical W) (c : Walk.Ctx) (fmt : Val → Text) {pa : CtxAttrs}
    (h1 : AMap.get pa.all "idprefix" = none) (h2 : AMap.get pa.all "idseparator" = none) {L : Lib} {R : Html.Rules} (hL : L.tmpl = Html.templatesOf R) {cfg : Config} (hcfg : C66.Plain L cfg)
    {ps : List Part} (hp : Ok env (C50.alnum S0) file false ps) (hk : depth ps ≤ files) {d : Headed.Document} (hc : lines (given api) [] 0 ps = d.lines)
    (hd : d.Ok (C59.alnum S)) (hu : ∀ l ∈ d.lines, C50.Untouched l) (hpl : ∀ x ∈ d.body, x.Plain) :
    Nonempty (C66.Stages env files (rootCtx file api) S A s D W c fmt pa L cfg (unlines (written ps))
      (if cfg.wrap then Headed.page L.lower (C59.alnum S) (C66.settings L R cfg) d else Headed.content L.lower (C59.alnum S) (getBoolD cfg.attrs "unicode" true) d.body)) := by
  obtain ⟨st⟩ := C66.text_to_page hE files (ctx := rootCtx file api) rfl hS hP hH hI hlen hA hs ha hD hW c fmt h1 h2 hL hcfg hd hu hpl
  have ht : st.text = joinLF d.lines := same_text st.preprocessed (C50.document_unchanged hE files (rootCtx file api) rfl d.lines hu)
  exact ⟨{ st with preprocessed := by rw [ht, ← hc]; exact inclusions_replaced hE hI0 hb files file hapi hp hk }⟩

/-- **C72**, with references to attributes, which may be declared in the included files. -/
theorem referenced_to_page (hE : C50.Reads env S0 elem sects within0) (hI0 : Includes S0 elem) (hb : C39.ClassOK env.alnum)
    (files : Nat) (file : Text) {S : Peg.Sem σ} {A : Peg.Code σ} (hS : C59.Code S) (hA : Actions.Obeys A)
    (hN : ∀ s st t, (S.pred 102 s st t).1 = true) (s : σ)
    (R : Refine.Reader) {W : Walk.World} (hW : C67.Grammatical S.letter S.number W) {L : Lib} (hL : L.tmpl.paragraph = Tmpl.Html5.paragraphTmpl)
    (outer : AMap Text) (hwf : AMap.WF outer) {cfg : Config} (hg : cfg.attrs = C67.settings outer) (hcfg : C60.Article L cfg)
    {ps : List Part} (hp : Ok env (C50.alnum S0) file false ps) (hk : depth ps ≤ files) {xs : List Referenced.Item}
    (hc : lines (fun n => (AMap.get outer (String.ofList n)).isSome) [] 0 ps = Referenced.lines xs) (hx : Referenced.Good (C59.alnum S) xs)
    (hu : ∀ l ∈ Referenced.lines xs, C50.Untouched l) (hf : Referenced.Fits (Referenced.State.start (fun n => AMap.get outer n)) xs) :
    Nonempty (C67.Stages env files (rootCtx file (values outer)) S A s R W outer L cfg (unlines (written ps))
      (Referenced.page (getBoolD cfg.attrs "unicode" true) (Referenced.State.start (fun n => AMap.get outer n)) xs)) := by
  obtain ⟨st⟩ := C67.text_to_page hE files (ctx := rootCtx file (values outer)) rfl hS hA hN s R hW hL outer hg hcfg hx hu hf
  have ht : st.text = joinLF (Referenced.lines xs) := same_text st.preprocessed (C50.document_unchanged hE files (rootCtx file (values outer)) rfl (Referenced.lines xs) hu)
  have hapi : AMap.WF (values outer) := by
    have e : (values outer).map Prod.fst = outer.map Prod.fst := by
      unfold C71.values
      rw [List.map_map]
      rfl
    unfold AMap.WF at hwf ⊢
    rw [e]
    exact hwf
  have e : given (values outer) = fun n => (AMap.get outer (String.ofList n)).isSome := by
    funext n
    unfold C71.given C71.values
    rw [C67.get_map Val.str]
    cases AMap.get outer (String.ofList n) <;> rfl
  have h := inclusions_replaced hE hI0 hb files file hapi hp hk
  rw [e, hc] at h
  exact ⟨{ st with preprocessed := by rw [ht]; exact h }⟩

end

/-! ### The hypotheses are met -/

/-- A value, and what follows it. -/
def cutValue (t : Text) : Text × Text :=
  if t.head? = some '"' then (t.tail.takeWhile (· ≠ '"'), (t.tail.dropWhile (· ≠ '"')).drop 1) else (t.takeWhile (· ≠ ','), t.dropWhile (· ≠ ','))

/-- The value of `leveloffset`. -/
def offsetOf (t : Text) : Option Text := if t = [] then none else some (t.drop 12)

/-- The path and the attributes of an inclusion. -/
def included (l : Text) : Inclusion :=
  let q := l.drop 9
  let p := q.takeWhile (· ≠ '[')
  let o := ((q.dropWhile (· ≠ '[')).drop 1).takeWhile (· ≠ ']')
  if o.take 6 = "lines=".toList then ⟨[.lit p], some (cutValue (o.drop 6)).1, none, offsetOf ((cutValue (o.drop 6)).2.drop 1)⟩
  else if o.take 5 = "tags=".toList then ⟨[.lit p], none, some (cutValue (o.drop 5)).1, offsetOf ((cutValue (o.drop 5)).2.drop 1)⟩
  else ⟨[.lit p], none, none, offsetOf o⟩

theorem cut_value {q : Bool} {v : Text} (h : Writable q v) {r : Text} (hr : r = [] ∨ ∃ x, r = ',' :: x) : cutValue (value q v ++ r) = (v, r) := by
  obtain ⟨h0, h1, h2⟩ := h
  cases q with
  | true =>
    have e : value true v ++ r = '"' :: (v ++ '"' :: r) := by simp [value]
    have hv : ∀ c ∈ v, decide (c ≠ '"') = true := by
      intro c hc
      have := h1 c hc
      simp only [List.mem_cons, List.not_mem_nil, or_false, not_or] at this
      simpa using this.2.2.2.2.2.2.2.2.2.1
    rw [e]
    unfold cutValue
    rw [if_pos (show ('"' :: (v ++ '"' :: r)).head? = some '"' from rfl)]
    show ((v ++ '"' :: r).takeWhile _, ((v ++ '"' :: r).dropWhile _).drop 1) = _
    rw [List.takeWhile_append_of_pos hv, List.dropWhile_append_of_pos hv]
    simp
  | false =>
    have e : value false v ++ r = v ++ r := rfl
    have hv : ∀ c ∈ v, decide (c ≠ ',') = true := by
      intro c hc
      have : c ≠ ',' := by rintro rfl; exact h2 rfl hc
      simpa using this
    have hh : (v ++ r).head? ≠ some '"' := by
      cases v with
      | nil => exact absurd rfl h0
      | cons c v =>
        have := h1 c (by simp)
        simp only [List.mem_cons, List.not_mem_nil, or_false, not_or] at this
        simpa using this.2.2.2.2.2.2.2.2.2.1
    rw [e]
    unfold cutValue
    rw [if_neg hh, List.takeWhile_append_of_pos hv, List.dropWhile_append_of_pos hv]
    rcases hr with rfl | ⟨x, rfl⟩ <;> simp

theorem offset_of (n : Nat) : offsetOf ("leveloffset=+".toList ++ n.repr.toList) = some ('+' :: n.repr.toList) := by
  unfold offsetOf
  rw [if_neg (by simp)]
  exact congrArg some (List.drop_left (l₁ := "leveloffset=".toList) (l₂ := '+' :: n.repr.toList))

theorem included_inclusion {p g : Text} {k : Pick} {o : Option Nat} (h : InclusionOk p k o g) : included (inclusion p k o g) = directiveOf p k o := by
  have e : inclusion p k o g = "include::".toList ++ (p ++ '[' :: (option k o ++ ']' :: g)) := by unfold inclusion; simp only [List.append_assoc]; rfl
  have hp : ∀ c ∈ p, decide (c ≠ '[') = true := by
    intro c hc
    have := h.path.2 c hc
    simp only [List.mem_cons, List.not_mem_nil, or_false, not_or] at this
    simpa using this.2.2.1
  have ho : ∀ c ∈ option k o, decide (c ≠ ']') = true := fun c hc => by simpa using (option_noEol h c hc).2
  have h1 : (p ++ '[' :: (option k o ++ ']' :: g)).takeWhile (· ≠ '[') = p := by
    rw [List.takeWhile_append_of_pos hp]; simp
  have h2 : (p ++ '[' :: (option k o ++ ']' :: g)).dropWhile (· ≠ '[') = '[' :: (option k o ++ ']' :: g) := by
    rw [List.dropWhile_append_of_pos hp]; simp
  have h3 : (option k o ++ ']' :: g).takeWhile (· ≠ ']') = option k o := by
    rw [List.takeWhile_append_of_pos ho]; simp
  have h9 : ("include::".toList ++ (p ++ '[' :: (option k o ++ ']' :: g))).drop 9 = p ++ '[' :: (option k o ++ ']' :: g) := List.drop_left (l₁ := "include::".toList)
  have key : included (inclusion p k o g) = (if (option k o).take 6 = "lines=".toList then
      ⟨[.lit p], some (cutValue ((option k o).drop 6)).1, none, offsetOf ((cutValue ((option k o).drop 6)).2.drop 1)⟩
    else if (option k o).take 5 = "tags=".toList then ⟨[.lit p], none, some (cutValue ((option k o).drop 5)).1, offsetOf ((cutValue ((option k o).drop 5)).2.drop 1)⟩
    else ⟨[.lit p], none, none, offsetOf (option k o)⟩) := by
    unfold included
    rw [e, h9]
    dsimp only
    rw [h1, h2, show ('[' :: (option k o ++ ']' :: g)).drop 1 = option k o ++ ']' :: g from rfl, h3]
  have rest : ∃ r, (r = [] ∨ ∃ x, r = ',' :: x) ∧ offsetOf (r.drop 1) = o.map (fun n => '+' :: n.repr.toList) ∧ ∀ a : Text, List.intercalate [','] ([a] ++ offsetWritten o) = a ++ r := by
    cases o with
    | none => exact ⟨[], .inl rfl, rfl, fun a => by rw [show [a] ++ offsetWritten none = [a] from rfl, intercalate_one, List.append_nil]⟩
    | some n => exact ⟨',' :: ("leveloffset=+".toList ++ n.repr.toList), .inr ⟨_, rfl⟩, offset_of n, fun a => intercalate_two _ _⟩
  obtain ⟨r, hr, hro, hra⟩ := rest
  rw [key]
  cases k with
  | all =>
    cases o with
    | none => rfl
    | some n =>
      have eo : option .all (some n) = "leveloffset=+".toList ++ n.repr.toList := intercalate_one _
      rw [eo, offset_of]
      rfl
  | lines q spec rs =>
    have eo : option (.lines q spec rs) o = "lines=".toList ++ (value q spec ++ r) := by rw [← List.append_assoc]; exact hra _
    rw [eo, if_pos (show ("lines=".toList ++ (value q spec ++ r)).take 6 = "lines=".toList from List.take_left (l₁ := "lines=".toList)), show ("lines=".toList ++ (value q spec ++ r)).drop 6 = value q spec ++ r from List.drop_left (l₁ := "lines=".toList), cut_value (h.lines q spec rs rfl) hr]
    dsimp only
    rw [hro]
    rfl
  | tags q spec rs =>
    have eo : option (.tags q spec rs) o = "tags=".toList ++ (value q spec ++ r) := by rw [← List.append_assoc]; exact hra _
    rw [eo, if_neg (fun e => absurd (congrArg List.head? e) (by
      show some 't' ≠ some 'l'
      decide)), if_pos (show ("tags=".toList ++ (value q spec ++ r)).take 5 = "tags=".toList from List.take_left (l₁ := "tags=".toList)), show ("tags=".toList ++ (value q spec ++ r)).drop 5 = value q spec ++ r from List.drop_left (l₁ := "tags=".toList), cut_value (h.tags q spec rs rfl) hr]
    dsimp only
    rw [hro]
    rfl

/-- Lines are read as in C50, and inclusions as they are written. -/
def sem : Peg.Sem (Option RawElem × Bool × Bool) :=
  { C50.rawSem with act := fun id s t u => if id = 26 then (some (.incl (included t)), s.2) else C50.rawSem.act id s t u }

theorem sem_act {id : Nat} (h : id ≠ 26) (s : Option RawElem × Bool × Bool) (t u : Text) : sem.act id s t u = C50.rawSem.act id s t u := if_neg h

theorem sem_code : C50.RawCode sem Prod.fst (fun s => s.2.1) (fun s => s.2.2) where
  cls := C50.rawSem_code.cls
  enabled := C50.rawSem_code.enabled
  outside := C50.rawSem_code.outside
  level := C50.rawSem_code.level
  pred_keeps := C50.rawSem_code.pred_keeps
  act_keeps id s t u := by
    by_cases h : id = 26
    · subst h; exact ⟨rfl, rfl⟩
    · rw [sem_act h]; exact C50.rawSem_code.act_keeps id s t u
  state_keeps := C50.rawSem_code.state_keeps
  restore_keeps := C50.rawSem_code.restore_keeps
  back := C50.rawSem_code.back
  passes := C50.rawSem_code.passes
  ifdef := C50.rawSem_code.ifdef
  ifndef := C50.rawSem_code.ifndef
  ifeval := C50.rawSem_code.ifeval
  endif := C50.rawSem_code.endif
  reset id hid s p := by
    rw [sem_act (by rintro rfl; revert hid; decide)]
    exact C50.rawSem_code.reset id hid s p
  delim x hx s p := by
    rw [sem_act (fun e => by
      have : ∀ x ∈ C50.delimActs, x.1 ≠ 26 := by decide
      exact this x hx e)]
    exact C50.rawSem_code.delim x hx s p
  code := C50.rawSem_code.code
  sect := C50.rawSem_code.sect
  decl := C50.rawSem_code.decl
  incl _ p := ⟨included p, rfl⟩

theorem sem_includes : Includes sem Prod.fst where
  quote := by decide
  incl _ _ _ _ _ h := by
    show some (RawElem.incl (included _)) = _
    rw [included_inclusion h]

theorem sem_progress : C45.ChecksProgress sem := C50.rawSem_progress

/-- Some files. -/
noncomputable def filesEnv (fs : Text → Option Text) : Env where
  classify se wb l := C50.read Prod.fst (Classical.choose (C45.exp_ends sem sem_progress (.rule Grammar.R.DocumentRawLine) rfl l (none, se, wb) l))
  resolve _ p := p
  fs := fs
  alnum := C50.rawAlnum
  showVal _ := []

theorem files_reads (fs : Text → Option Text) : C50.Reads (filesEnv fs) sem Prod.fst (fun s => s.2.1) (fun s => s.2.2) where
  code := sem_code
  progress := sem_progress
  special := C50.rawSem_special
  classify se wb l _ := ⟨l, (none, se, wb), _, rfl, rfl, Classical.choose_spec (C45.exp_ends sem sem_progress (.rule Grammar.R.DocumentRawLine) rfl l (none, se, wb) l), rfl⟩

theorem line_ok {inside : Bool} {l : Text} (h : (l.all (fun c => !Grammar.isEol c) && decide (utf8Len l ≤ 65535) &&
    ["include::", "ifdef::", "ifndef::", "ifeval::[", "endif::"].all (fun k => !k.toList.isPrefixOf l) && decide (l.head? ≠ some ':') && fences.all (fun f => !f.isPrefixOf l) &&
    (inside || decide (l.head? ≠ some '='))) = true) : LineOk inside l := by
  simp only [Bool.and_eq_true] at h
  obtain ⟨⟨⟨h1, h2⟩, h3⟩, h4⟩ := h
  refine ⟨C50.untouched_of (by simp only [Bool.and_eq_true]; exact h1), of_decide_eq_true h2, fun f hf hp => ?_, fun hi => ?_⟩
  · have := List.all_eq_true.mp h3 f hf
    rw [List.isPrefixOf_iff_prefix.mpr hp] at this
    cases this
  · rw [hi] at h4
    exact of_decide_eq_true h4

theorem contains_lines {all : List Text} (h : all.all (fun l => l.all (fun c => !Grammar.isEol c) && decide (utf8Len l ≤ 65535)) = true) : ∀ l ∈ all, C50.NoEol l ∧ utf8Len l ≤ 65535 := by
  intro l hl
  have h := List.all_eq_true.mp h l hl
  simp only [Bool.and_eq_true, decide_eq_true_eq] at h
  exact ⟨fun c hc => by simpa using List.all_eq_true.mp h.1 c hc, h.2⟩

/-- A file of which all lines are wanted. -/
theorem contains_all {fs : Text → Option Text} {file : Text} {ls : List Text} (hf : fs file = some (unlines ls))
    (h : ls.all (fun l => l.all (fun c => !Grammar.isEol c) && decide (utf8Len l ≤ 65535)) = true) (ht : ls.all (fun l => !hasTag C50.rawAlnum l) = true) : Contains (filesEnv fs) file .all ls ls where
  content := hf
  lines := contains_lines h
  pick := trivial
  wanted := by
    unfold picked; dsimp only
    rw [List.filter_eq_self.mpr]
    intro l hl
    have ht : hasTag C50.rawAlnum l = false := by simpa using List.all_eq_true.mp ht l hl
    have hm : ¬ C03.HasMacro C50.rawAlnum l := by rw [← C03.hasTag_iff C50.rawAlnum (by decide), ht]; decide
    exact @decide_eq_true _ (_) hm

theorem class_ok : C39.ClassOK C50.rawAlnum := by unfold C39.ClassOK; decide

theorem inclusion_ok {p g : Text} {o : Option Nat} (h : (decide (p ≠ []) && p.all (fun c => !notInPath.contains c) && o.all (fun n => decide (n ≤ 9)) && g.all Grammar.isBlank &&
    decide (utf8Len (inclusion p .all o g) ≤ 65535)) = true) : InclusionOk p .all o g := by
  simp only [Bool.and_eq_true] at h
  obtain ⟨⟨⟨⟨h1, h2⟩, h3⟩, h4⟩, h5⟩ := h
  refine ⟨⟨of_decide_eq_true h1, fun c hc hm => ?_⟩, fun _ _ _ e => (nomatch e), fun _ _ _ e => (nomatch e), fun n hn => ?_, fun x hx => ?_, of_decide_eq_true h5⟩
  · have := List.all_eq_true.mp h2 c hc
    rw [show notInPath.contains c = true from List.contains_iff_mem.mpr hm] at this
    cases this
  · subst hn
    simpa using h3
  · have h := List.all_eq_true.mp h4 x hx
    rw [← C62.isBlank_iff, Bool.or_eq_true, beq_iff_eq, beq_iff_eq] at h
    exact h

/-- The document of C69 in four files: the first section in one of its own, that includes the second one; and this one includes the lines of its block. -/
def codeParts : List Part := [.line "a *b*".toList]
def moreParts : List Part :=
  [.heading 0 "Setup".toList, .when true "manual".toList [] [.fence '-' 4 [] [.file "code.txt".toList .all none [] (written codeParts) codeParts] []] [] [],
   .line "H~2~O".toList, .line []]
def setupParts : List Part :=
  [.heading 0 "Setup".toList, .line "* Unpack & run".toList, .line "* Done".toList, .line [], .file "more.adoc".toList .all (some 1) " ".toList (written moreParts) moreParts]
def docParts : List Part :=
  [.line "It's *very _easy_*:".toList, .line [], .file "parts/setup.adoc".toList .all (some 1) [] (written setupParts) setupParts, .heading 1 "First run".toList,
   .line "See <<_Setup_2>>, *<<First run>>*, <<_Setup,over there>> and <<none>>".toList]

/-- What is written in them. -/
theorem files_written : unlines (written docParts) = ("It's *very _easy_*:\n\ninclude::parts/setup.adoc[leveloffset=+1]\n== First run\n" ++
      "See <<_Setup_2>>, *<<First run>>*, <<_Setup,over there>> and <<none>>\n").toList ∧
    unlines (written setupParts) = "= Setup\n* Unpack & run\n* Done\n\ninclude::more.adoc[leveloffset=+1] \n".toList ∧
    unlines (written moreParts) = "= Setup\nifdef::manual[]\n----\ninclude::code.txt[]\n----\nendif::[]\nH~2~O\n\n".toList ∧
    unlines (written codeParts) = "a *b*\n".toList := by decide +kernel

def someFiles (p : Text) : Option Text :=
  if p = "parts/setup.adoc".toList then some (unlines (written setupParts))
  else if p = "more.adoc".toList then some (unlines (written moreParts))
  else if p = "code.txt".toList then some (unlines (written codeParts))
  else none

theorem docParts_ok : Ok (filesEnv someFiles) (C50.alnum sem) [] false docParts := by
  have code : Ok (filesEnv someFiles) (C50.alnum sem) "code.txt".toList true codeParts := ⟨line_ok (by decide +kernel), trivial⟩
  have more : Ok (filesEnv someFiles) (C50.alnum sem) "more.adoc".toList false moreParts := by
    refine ⟨⟨rfl, by decide, ⟨'S', "etup".toList, by decide +kernel, by decide, by decide⟩, by unfold C50.NoEol; decide +kernel, by decide +kernel⟩,
      ⟨by decide, C71.directive_ok (by decide +kernel), ⟨⟨rfl, ⟨4, "listing", by decide, by decide⟩, fun _ h => (nomatch h), fun _ h => (nomatch h), by decide +kernel, by decide +kernel,
        ⟨inclusion_ok (by decide +kernel), by decide +kernel, contains_all (by decide +kernel) (by decide +kernel) (by decide +kernel), code⟩, trivial⟩, trivial⟩, C71.directive_ok (by decide +kernel)⟩,
      line_ok (by decide +kernel), line_ok (by decide +kernel), trivial⟩
  have setup : Ok (filesEnv someFiles) (C50.alnum sem) "parts/setup.adoc".toList false setupParts := by
    exact ⟨⟨rfl, by decide, ⟨'S', "etup".toList, by decide +kernel, by decide, by decide⟩, by unfold C50.NoEol; decide +kernel, by decide +kernel⟩,
      line_ok (by decide +kernel), line_ok (by decide +kernel), line_ok (by decide +kernel),
      ⟨inclusion_ok (by decide +kernel), by decide +kernel, contains_all (by decide +kernel) (by decide +kernel) (by decide +kernel), more⟩, trivial⟩
  exact ⟨line_ok (by decide +kernel), line_ok (by decide +kernel), ⟨inclusion_ok (by decide +kernel), by decide +kernel, contains_all (by decide +kernel) (by decide +kernel) (by decide +kernel), setup⟩,
    ⟨rfl, by decide, ⟨'F', "irst run".toList, by decide +kernel, by decide, by decide⟩, by unfold C50.NoEol; decide +kernel, by decide +kernel⟩, line_ok (by decide +kernel), trivial⟩

/-- From what is written in the files to what is shown. -/
theorem sample_to_page (c : Walk.Ctx) (fmt : Val → Text) : Nonempty (C69.Stages (filesEnv someFiles) 3 (rootCtx [] [("manual", .str [])]) C63.sem C62.acts 0 C62.reader C65.world c fmt ⟨[], []⟩
    (C51.lib Html.html) C60.plainCfg (unlines (written docParts)) C69.sampleHtml) := by
  have h := text_to_page (files_reads someFiles) sem_includes class_ok 3 [] (api := [("manual", .str [])]) (by unfold AMap.WF; decide) C63.sem_code C63.sem_place C63.sem_list C63.sem_lenCode
    C62.acts_obey (s := 0) rfl (D := C62.reader) C62.reader_reads
    C69.world_grammatical C65.world_spoken c fmt (pa := ⟨[], []⟩) rfl rfl (L := C51.lib Html.html) (R := Html.html) rfl
    (C60.plainCfg_article _) rfl docParts_ok (by decide +kernel) (xs := C69.sample) (by decide +kernel) C69.sample_good (C68.untouched (by decide +kernel)) C69.sample_ready
  rw [show Woven.page (C51.lib Html.html).lower (C59.alnum C63.sem) (getBoolD C60.plainCfg.attrs "unicode" true) C69.reading C69.sample = C69.sampleHtml by decide +kernel] at h
  exact h

/-! ### Declarations in included files; files of no lines and other files -/

def attributeParts : List Part := [.declare "version".toList ":version: 1.2".toList]

def twoFiles (p : Text) : Option Text :=
  if p = "attributes.adoc".toList then some (unlines (written attributeParts))
  else if p = "empty.adoc".toList then some []
  else if p = "main.go".toList then some "func main() {}\n".toList
  else none

/-- A document that includes the declaration of an attribute, and says so. -/
def versionParts : List Part :=
  [.file "attributes.adoc".toList .all none [] (written attributeParts) attributeParts, .line [], .short false "version".toList "No version, but {version}".toList [], .short true "version".toList "Version".toList []]

def versionItems : List Referenced.Item :=
  [.declare "version" [' '] (C67.chars "1.2"), .blank [], .para ⟨C67.chars "No version, but " ++ [.ref "version"], []⟩ []]

theorem version_written : unlines (written versionParts) = "include::attributes.adoc[]\n\nifndef::version[No version, but {version}]\nifdef::version[Version]\n".toList := by decide +kernel

theorem version_ok : Ok (filesEnv twoFiles) (C50.alnum sem) [] false versionParts := by
  refine ⟨⟨inclusion_ok (by decide +kernel), by decide +kernel, contains_all (by decide +kernel) (by decide +kernel) (by decide +kernel),
    ⟨C50.untouched_of (by decide +kernel), ⟨'v', "ersion".toList, by decide +kernel, .inl (by decide +kernel), by decide +kernel⟩, .inr ⟨[' '], "1.2".toList, by decide, ?_, by decide +kernel, ?_, by decide +kernel⟩⟩, trivial⟩,
    line_ok (by decide +kernel), ⟨by decide, by decide, C71.directive_ok (by decide +kernel)⟩, ⟨by decide, by decide, C71.directive_ok (by decide +kernel)⟩, trivial⟩
  · intro c hc; exact .inl (List.mem_singleton.mp hc)
  · intro c hc; rw [show "1.2".toList.getLast? = some '2' by decide +kernel] at hc; cases hc; decide

theorem version_good : Referenced.Good (C59.alnum C67.sem) versionItems := by
  have ok : ∀ l : Paragraphs.Line, (l.full.all (fun c => !Grammar.isEol c) && l.text.any (fun c => !C48.isSpace c) && l.trail.all Grammar.isBlank &&
      (l.text.getLast?.all (fun c => !Grammar.isBlank c))) = true → l.Ok := by
    intro l h
    simp only [Bool.and_eq_true] at h
    obtain ⟨⟨⟨h1, h2⟩, h3⟩, h4⟩ := h
    refine ⟨fun c hc => by simpa using List.all_eq_true.mp h1 c hc, ?_, fun c hc => List.all_eq_true.mp h3 c hc, fun c hc => ?_⟩
    · obtain ⟨c, hc, h⟩ := List.any_eq_true.mp h2
      exact ⟨c, hc, by simpa using h⟩
    · rw [hc] at h4; simpa using h4
  refine ⟨⟨C67.name_of _ (by decide +kernel), by decide +kernel, by decide, by decide,
      C67.value_ok (by decide +kernel) (by decide +kernel) (by decide +kernel) (by decide +kernel) (by decide +kernel)⟩,
    by decide, ⟨ok _ (by decide +kernel), ?_, by simp, C67.tok_ok (by decide +kernel)⟩, by decide +kernel, trivial, trivial⟩
  refine ⟨⟨'N', "o version, but {version}".toList, by decide +kernel, by decide, fun d x e hd hp => ?_⟩, by decide +kernel, by decide +kernel⟩
  obtain ⟨z, hz⟩ := hp
  have hz : d = 'o' := Option.some.inj (congrArg List.head? (hz.trans (show _ = 'o' :: " version, but {version}".toList by decide +kernel)))
  rcases hd with rfl | rfl <;> exact absurd hz (by decide)

/-- **C72, finding**: what an included file declares is what the references after it show, but the conditions after it do not know of it: for the document
`include::attributes.adoc[]`, `ifndef::version[No version, but {version}]`, `ifdef::version[Version]`, with `:version: 1.2` in the included file. -/
theorem finding_included_declaration (R : Refine.Reader) : Nonempty (C67.Stages (filesEnv twoFiles) 1 (rootCtx [] (values C67.given)) C67.sem C59.acts () R C59.world C67.given (C51.lib Html.html) C67.cfg
    (unlines (written versionParts)) ("<div class=\"paragraph\">\n<p>No version, but 1.2</p>\n</div>\n").toList) := by
  have h := referenced_to_page (files_reads twoFiles) sem_includes class_ok 1 [] C67.sem_code C59.acts_obey (fun _ _ _ => rfl) () R C67.world_grammatical C60.templates.1 C67.given (by unfold AMap.WF; decide)
    (cfg := C67.cfg) rfl (C67.cfg_article _) version_ok (by decide +kernel) (xs := versionItems) (by decide +kernel) version_good
    (fun l hl => C50.untouched_of (List.all_eq_true.mp (show (Referenced.lines versionItems).all (fun l => l.all (fun c => !Grammar.isEol c) && decide (utf8Len l ≤ 65535) &&
      ["include::", "ifdef::", "ifndef::", "ifeval::[", "endif::"].all (fun k => !k.toList.isPrefixOf l)) = true by decide +kernel) l hl))
    (by refine ⟨?_, trivial, ⟨?_, ?_⟩, trivial⟩ <;> decide +kernel)
  rw [show Referenced.page (getBoolD C67.cfg.attrs "unicode" true) (Referenced.State.start (fun n => AMap.get C67.given n)) versionItems =
    ("<div class=\"paragraph\">\n<p>No version, but 1.2</p>\n</div>\n").toList by decide +kernel] at h
  exact h

/-- **C72, finding**: a file of no lines leaves a blank line, which ends the paragraph; and a file that is not AsciiDoc leaves a blank line after its own. -/
theorem finding_blank_lines : preprocess (filesEnv twoFiles) 2 (rootCtx [] []) "a\ninclude::empty.adoc[]\nb\n----\ninclude::main.go[]\n----\n".toList =
    .ok ("a\n\nb\n----\nfunc main() {}\n\n----".toList, []) := by
  have h := inclusions_replaced (files_reads twoFiles) sem_includes class_ok 1 [] (api := []) (by unfold AMap.WF; decide)
    (ps := [.line "a".toList, .file "empty.adoc".toList .all none [] [] [], .line "b".toList, .fence '-' 4 [] [.plain "main.go".toList .all [] ["func main() {}".toList] ["func main() {}".toList]] []])
    ⟨line_ok (by decide +kernel), ⟨inclusion_ok (by decide +kernel), by decide +kernel, contains_all (by decide +kernel) (by decide +kernel) (by decide +kernel), trivial⟩, line_ok (by decide +kernel),
      ⟨rfl, ⟨4, "listing", by decide, by decide⟩, fun _ h => (nomatch h), fun _ h => (nomatch h), by decide +kernel, by decide +kernel,
        ⟨inclusion_ok (by decide +kernel), by decide +kernel, contains_all (by decide +kernel) (by decide +kernel) (by decide +kernel)⟩, trivial⟩, trivial⟩ (by decide +kernel)
  rw [show unlines (written _) = "a\ninclude::empty.adoc[]\nb\n----\ninclude::main.go[]\n----\n".toList by decide +kernel] at h
  rw [h]
  exact congrArg (fun t => Except.ok (t, [])) (by decide +kernel)

end C72
end Verif
