import Verif.Props.Referenced
/-!
# C67 — The hypotheses can be met
-/
namespace Verif
namespace C67
open Referenced
open Rend hiding Item bind_ok
open Walk (Any)
open Paragraphs (Line)
open Grammar

/-- The code of the grammar, where the substitution of attributes is enabled (context.go:30). -/
def sem : Peg.Sem Unit := { C59.sem with pred := fun id s st t => if id = 102 then (true, s) else C59.sem.pred id s st t }

theorem sem_code : C59.Code sem where
  fragment := C59.sem_code.fragment
  visible := C59.sem_code.visible
  others id hid s st t h := by
    have h1 : id ≠ 102 := by rintro rfl; revert hid; decide
    refine C59.sem_code.others id hid s st t ?_
    have : (if id = 102 then (true, s) else C59.sem.pred id s st t).1 = true := h
    rw [if_neg h1] at this
    exact this
  label := C59.sem_code.label
  ascii := C59.sem_code.ascii

theorem world_grammatical : Grammatical sem.letter sem.number C59.world := by
  intro c t _ _
  refine ⟨Unit, C58.sem c.subs, C58.acts, (), C58.sem_progress _, C58.acts_obey, C58.sem_enabled _, rfl, rfl, ?_⟩
  intro n s' es u h
  have hx : ∃ es, ∃ n s' u, Peg.runV Grammar.grammar (C58.sem c.subs) C58.acts n (.rule R.NormalGroup) t () t = some (.ok s' [.slice es] u) :=
    ⟨es, n, s', u, h⟩
  refine (dif_pos hx).trans ?_
  obtain ⟨n2, s2, u2, h2⟩ := hx.choose_spec
  have := Peg.runV_one h h2
  injection this with _ h3 _
  injection h3 with h3 _
  injection h3 with h3
  rw [← h3]

def chars (t : String) : List Tok := t.toList.map .char

/-- Declarations, one of which uses what is given from outside and what is declared before; references to them, to an attribute without value, an
escaped reference, and counters; a reset, and a declaration of what is given from outside. -/
def sample : List Item :=
  [.declare "version" [' '] (chars "1.2"),
   .declare "full" " \t".toList ([.ref "product"] ++ chars " v" ++ [.ref "version"]),
   .blank [],
   .para ⟨chars "If " ++ [.ref "full"] ++ chars " < 2, " ++ [.count "n"] ++ chars " and " ++ [.count "n"] ++ chars ", " ++ [.kept "full"] ++ chars " " ++ [.ref "nope"], " ".toList⟩
     [⟨[.step "n"] ++ chars "then " ++ [.count "n", .count "m"], []⟩],
   .blank [],
   .reset "version" true [],
   .reset "nope" false " ".toList,
   .declare "product" [' '] (chars "Other"),
   .blank " ".toList,
   .para ⟨chars "On " ++ [.ref "version"] ++ chars " " ++ [.ref "product"] ++ chars " " ++ [.ref "full"], []⟩ [],
   .blank []]

def sampleText : Text := (":version: 1.2\n:full: \t{product} v{version}\n\n" ++
  "If {full} < 2, {counter:n} and {counter:n}, \\{full} {nope} \n{counter2:n}then {counter:n}{counter:m}\n\n" ++
  ":!version:\n:nope!: \n:product: Other\n \nOn {version} {product} {full}\n\n").toList

def samplePage : Text := ("<div class=\"paragraph\">\n<p>If Lib v1.2 &lt; 2, 1 and 2, {full} {nope}\nthen 41</p>\n</div>\n" ++
  "<div class=\"paragraph\">\n<p>On {version} Lib Lib v1.2</p>\n</div>\n").toList

/-- Given from outside. -/
def given : AMap Text := [("product", "Lib".toList)]

def cfg : Config := ⟨settings given, false, [], []⟩

theorem cfg_article (R : Html.Rules) : C60.Article (C51.lib R) cfg :=
  ⟨by show "article".toList ≠ "manpage".toList; decide +kernel, rfl, rfl⟩

theorem sample_source : source sample = sampleText := by decide +kernel

theorem sample_page : page true (State.start (fun n => AMap.get given n)) sample = samplePage := by decide +kernel

theorem name_of {alnum : Char → Bool} (n : String) (h : (match n.toList with
    | c :: r => (alnum c || c == '_') && r.all (fun d => alnum d || d == '-')
    | [] => false) = true) : Name alnum n := by
  split at h
  · next c r e =>
    rw [Bool.and_eq_true, Bool.or_eq_true, beq_iff_eq] at h
    refine ⟨c, r, e, h.1, fun d hd => ?_⟩
    have := List.all_eq_true.mp h.2 d hd
    rwa [Bool.or_eq_true, beq_iff_eq] at this
  · cases h

def nameOk (n : String) : Bool := match n.toList with
  | c :: r => (C59.alnum sem c || c == '_') && r.all (fun d => C59.alnum sem d || d == '-')
  | [] => false

def tokOk : Tok → Bool
  | .char c => c != '{' && c != '\\'
  | .ref n => nameOk n && !characters.contains n
  | .kept n => nameOk n
  | .count n => nameOk n
  | .step n => nameOk n

def tokSimple : Tok → Bool
  | .char c => !['{', '\\', '<', '>', '&', '+', '\r', '\n'].contains c
  | .ref n => nameOk n && !characters.contains n
  | _ => false

theorem tok_ok {ts : List Tok} (h : ts.all tokOk = true) : ∀ t ∈ ts, t.Ok (C59.alnum sem) := by
  intro t ht
  have h := List.all_eq_true.mp h t ht
  cases t with
  | char c => simpa [tokOk, Tok.Ok] using h
  | ref n =>
    simp only [tokOk, Bool.and_eq_true, Bool.not_eq_true'] at h
    refine ⟨name_of n h.1, fun hm => ?_⟩
    rw [List.contains_iff_mem.mpr hm] at h
    exact absurd h.2 (by decide)
  | kept n => exact name_of n h
  | count n => exact name_of n h
  | step n => exact name_of n h

theorem tok_simple {ts : List Tok} (h : ts.all tokSimple = true) : ∀ t ∈ ts, t.Simple (C59.alnum sem) := by
  intro t ht
  have h := List.all_eq_true.mp h t ht
  cases t with
  | char c => 
    intro hm
    have : (['{', '\\', '<', '>', '&', '+', '\r', '\n'].contains c) = true := List.contains_iff_mem.mpr hm
    simp only [tokSimple, this] at h
    exact absurd h (by decide)
  | ref n =>
    simp only [tokSimple, Bool.and_eq_true, Bool.not_eq_true'] at h
    refine ⟨name_of n h.1, fun hm => ?_⟩
    rw [List.contains_iff_mem.mpr hm] at h
    exact absurd h.2 (by decide)
  | kept n => cases h
  | count n => cases h
  | step n => cases h

theorem value_ok {v : List Tok} (h1 : v ≠ []) (h2 : v.all tokSimple = true) (h3 : (match v.head? with | some (.char c) => !Rend.goSpace c | _ => true) = true)
    (h4 : (match v.getLast? with | some (.char c) => !Rend.goSpace c | _ => true) = true) (h5 : ¬ "pass:".toList <:+: written v) : Value (C59.alnum sem) v := by
  refine ⟨h1, tok_simple h2, fun c hc => ?_, fun c hc => ?_, h5⟩
  · rw [hc] at h3; simpa using h3
  · rw [hc] at h4; simpa using h4

theorem sample_good : Good (C59.alnum sem) sample := by
  have ok : ∀ l : Line, (l.full.all (fun c => !Grammar.isEol c) && l.text.any (fun c => !C48.isSpace c) && l.trail.all Grammar.isBlank &&
      (l.text.getLast?.all (fun c => !Grammar.isBlank c))) = true → l.Ok := by
    intro l h
    simp only [Bool.and_eq_true] at h
    obtain ⟨⟨⟨h1, h2⟩, h3⟩, h4⟩ := h
    refine ⟨fun c hc => by simpa using List.all_eq_true.mp h1 c hc, ?_, fun c hc => List.all_eq_true.mp h3 c hc, fun c hc => ?_⟩
    · obtain ⟨c, hc, h⟩ := List.any_eq_true.mp h2
      exact ⟨c, hc, by simpa using h⟩
    · rw [hc] at h4; simpa using h4
  have op : ∀ (l : Line) (c : Char) (r : Text), l.full = c :: r → C59.alnum sem c = true →
      (match r with | d :: _ => !(d == '.' || d == ')') | [] => true) = true →
      (¬ [':', ':'] <:+: l.full) → (∀ p ∈ C48.admonitions, ¬ p <+: l.full) → Paragraphs.Opens (C59.alnum sem) l := by
    intro l c r h1 h2 h3 h4 h5
    refine ⟨⟨c, r, h1, h2, fun d x _ hd hp => ?_⟩, h4, h5⟩
    obtain ⟨z, rfl⟩ := hp
    rcases hd with rfl | rfl <;> exact absurd (show false = true from h3) (by decide)
  have co : ∀ l : Line, (match l.full with | c :: _ => decide (c ∉ Paragraphs.openers) | [] => true) = true → Paragraphs.Continues l := by
    intro l h c r e
    rw [e] at h
    exact of_decide_eq_true h
  refine ⟨⟨name_of _ (by decide +kernel), by decide +kernel, by decide, by decide, value_ok (by decide +kernel) (by decide +kernel) (by decide +kernel) (by decide +kernel) (by decide +kernel)⟩,
    ⟨name_of _ (by decide +kernel), by decide +kernel, by decide +kernel, by decide +kernel, value_ok (by simp) (by decide +kernel) (by decide +kernel) (by decide +kernel) (by decide +kernel)⟩,
    by decide, ⟨ok _ (by decide +kernel), ?_, ?_, tok_ok (by decide +kernel)⟩, by decide +kernel, trivial, by decide,
    ⟨name_of _ (by decide +kernel), by decide +kernel, by decide⟩, ⟨name_of _ (by decide +kernel), by decide +kernel, by decide +kernel⟩,
    ⟨name_of _ (by decide +kernel), by decide +kernel, by decide, by decide, value_ok (by decide +kernel) (by decide +kernel) (by decide +kernel) (by decide +kernel) (by decide +kernel)⟩,
    by decide +kernel, ⟨ok _ (by decide +kernel), ?_, by simp, tok_ok (by decide +kernel)⟩, by decide +kernel, trivial, by decide, trivial⟩
  · exact op _ 'I' _ rfl (by decide) (by decide +kernel) (by decide +kernel) (by decide +kernel)
  · intro x hx
    simp only [List.mem_cons, List.not_mem_nil, or_false] at hx
    rcases hx with rfl
    exact ⟨ok _ (by decide +kernel), co _ (by decide +kernel)⟩
  · exact op _ 'O' _ rfl (by decide) (by decide +kernel) (by decide +kernel) (by decide +kernel)

theorem sample_lines : ∀ l ∈ lines sample, C50.Untouched l := by
  have h : (lines sample).all (fun l => l.all (fun c => !Grammar.isEol c) && decide (utf8Len l ≤ 65535) &&
    ["include::", "ifdef::", "ifndef::", "ifeval::[", "endif::"].all (fun k => !k.toList.isPrefixOf l)) = true := by decide +kernel
  exact fun l hl => C50.untouched_of (List.all_eq_true.mp h l hl)

theorem sample_fits : Fits (State.start (fun n => AMap.get given n)) sample := by
  refine ⟨?_, ?_, trivial, ⟨?_, ?_⟩, trivial, trivial, trivial, ?_, trivial, ⟨?_, ?_⟩, trivial, trivial⟩ <;> decide +kernel

/-- **C67** on a document. -/
theorem sample_to_page (R : Refine.Reader) : Nonempty (Stages C50.rawEnv 0 (rootCtx [] []) sem C59.acts () R C59.world given (C51.lib Html.html) cfg sampleText samplePage) := by
  have h := text_to_page C50.rawEnv_reads 0 (ctx := rootCtx [] []) rfl sem_code C59.acts_obey (fun _ _ _ => rfl) () R world_grammatical C60.templates.1 given
    (cfg := cfg) rfl (cfg_article _) sample_good sample_lines sample_fits
  rw [sample_source, show page (getBoolD cfg.attrs "unicode" true) _ sample = samplePage from sample_page] at h
  exact h

end C67
end Verif
