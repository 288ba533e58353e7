import Verif.Model.Validator
/-! C31: manpage validation reports no problem iff the document has the required structure. -/
namespace Verif.C31
open Validator

/-! ### Specification -/

/-- The document has a header: possibly after front matter and blank lines. -/
def HasHeader (doc : List El) : Prop := ∃ a hs b, doc = a ++ .header hs :: b ∧ ∀ e ∈ a, e = .front ∨ e = .blank

/-- A section of level 1 with the given name (in any case) and content. -/
def Named (lower : Text → Text) (name : String) (e : El) (es : List El) : Prop :=
  ∃ t, e = .section 1 [.str t] es ∧ lower t = name.toList

/-- The elements of the document, without the (first) header. -/
def Body (doc body : List El) : Prop :=
  (∃ a hs b, doc = a ++ .header hs :: b ∧ (∀ e ∈ a, ∀ hs, e ≠ .header hs) ∧ body = a ++ b) ∨ ((∀ e ∈ doc, ∀ hs, e ≠ .header hs) ∧ body = doc)

/-- The structure of a manual page: a header, and a body that begins with the sections `Name`, with a single element, and
`Synopsis`. -/
def IsManpage (lower : Text → Text) (doc : List El) : Prop :=
  HasHeader doc ∧ ∃ name x synopsis es rest, Body doc (name :: synopsis :: rest) ∧ Named lower "name" name [x] ∧ Named lower "synopsis" synopsis es

/-! ### Proofs -/

theorem header_iff : ∀ (doc : List El), (header doc).isSome = true ↔ HasHeader doc := by
  intro doc
  constructor
  · intro h
    induction doc with
    | nil => cases h
    | cons e es ih =>
      cases e with
      | header hs => exact ⟨[], hs, es, rfl, by simp⟩
      | blank =>
        obtain ⟨a, hs, b, rfl, ha⟩ := ih h
        exact ⟨.blank :: a, hs, b, rfl, by intro e he; rcases List.mem_cons.1 he with rfl | he; exact Or.inr rfl; exact ha e he⟩
      | front =>
        obtain ⟨a, hs, b, rfl, ha⟩ := ih h
        exact ⟨.front :: a, hs, b, rfl, by intro e he; rcases List.mem_cons.1 he with rfl | he; exact Or.inl rfl; exact ha e he⟩
      | _ => cases h
  · rintro ⟨a, hs, b, rfl, ha⟩
    induction a with
    | nil => rfl
    | cons e a ih =>
      rcases ha e (by simp) with rfl | rfl
      · exact ih (fun e he => ha e (by simp [he]))
      · exact ih (fun e he => ha e (by simp [he]))

theorem body_eq : ∀ (doc body : List El), Body doc body ↔ body = bodyElements doc := by
  intro doc
  induction doc with
  | nil =>
    intro body
    constructor
    · rintro (⟨a, hs, b, h, _⟩ | ⟨_, rfl⟩)
      · cases a <;> cases h
      · rfl
    · rintro rfl; exact Or.inr ⟨by simp, rfl⟩
  | cons e es ih =>
    intro body
    by_cases hh : ∃ hs, e = .header hs
    · obtain ⟨hs, rfl⟩ := hh
      constructor
      · rintro (⟨a, hs', b, h, ha, rfl⟩ | ⟨h, _⟩)
        · cases a with
          | nil => simp only [List.nil_append, List.cons.injEq] at h; exact h.2.symm
          | cons x a => simp only [List.cons_append, List.cons.injEq] at h; exact absurd h.1.symm (ha x (by simp) hs)
        · exact absurd rfl (h (.header hs) (by simp) hs)
      · intro h; exact Or.inl ⟨[], hs, es, rfl, by simp, h⟩
    · have hne : ∀ hs, e ≠ .header hs := fun hs h => hh ⟨hs, h⟩
      have hb : bodyElements (e :: es) = e :: bodyElements es := by
        cases e with
        | header hs => exact absurd rfl (hne hs)
        | _ => rfl
      rw [hb]
      constructor
      · rintro (⟨a, hs', b, h, ha, rfl⟩ | ⟨h, hbody⟩)
        · cases a with
          | nil => simp only [List.nil_append, List.cons.injEq] at h; exact absurd h.1 (hne hs')
          | cons x a =>
            simp only [List.cons_append, List.cons.injEq] at h
            obtain ⟨rfl, h⟩ := h
            rw [List.cons_append, (ih (a ++ b)).1 (Or.inl ⟨a, hs', b, h, fun e he => ha e (by simp [he]), rfl⟩)]
        · rw [hbody]; exact congrArg (e :: ·) ((ih es).1 (Or.inr ⟨fun e he => h e (by simp [he]), rfl⟩))
      · rintro rfl
        rcases (ih (bodyElements es)).2 rfl with ⟨a, hs', b, h, ha, hb⟩ | ⟨h, hb⟩
        · refine Or.inl ⟨e :: a, hs', b, by rw [h]; rfl, ?_, by rw [hb]; rfl⟩
          intro x hx
          rcases List.mem_cons.1 hx with rfl | hx
          · exact hne
          · exact ha x hx
        · refine Or.inr ⟨?_, by rw [hb]⟩
          intro x hx
          rcases List.mem_cons.1 hx with rfl | hx
          · exact hne
          · exact h x hx

theorem named_iff (lower : Text → Text) (name : String) (e : El) (es : List El) :
    isSection1 lower name.toList e = some es ↔ Named lower name e es := by
  cases e with
  | «section» level title ks =>
    constructor
    · intro h
      have h : (if level = 1 ∧ withTitle lower name.toList title = true then some ks else none) = some es := h
      split at h
      · rename_i hc
        cases h
        obtain ⟨rfl, ht⟩ := hc
        unfold withTitle at ht
        split at ht
        · rename_i t
          exact ⟨t, rfl, by simpa using ht⟩
        · cases ht
      · cases h
    · rintro ⟨t, h, hl⟩
      cases h
      show (if (1 : Int) = 1 ∧ withTitle lower name.toList [.str t] = true then some es else none) = some es
      rw [if_pos ⟨rfl, by simp [withTitle, hl]⟩]
  | _ => constructor <;> (first | (intro h; cases h; done) | (rintro ⟨t, h, _⟩; cases h))

/-! ### The property -/

/-- C31: no problem is reported for a manual page exactly if it has the required structure. -/
theorem no_problem_iff (lower : Text → Text) (doc : List El) :
    validate lower doc "manpage".toList = .ok [] ↔ IsManpage lower doc := by
  unfold validate
  rw [if_pos rfl]
  unfold validateManpage IsManpage
  rw [← header_iff]
  cases hh : header doc with
  | none =>
    have hp : headerProblem doc = [.noHeader] := by unfold headerProblem; rw [hh]
    simp only [Option.isSome_none, Bool.false_eq_true, false_and, iff_false]
    rw [hp]
    intro h
    split at h
    · cases h
    · split at h
      · cases h
      · split at h
        · cases h
        · split at h
          · cases h
          · split at h <;> cases h
  | some hs =>
    have hp : headerProblem doc = [] := by unfold headerProblem; rw [hh]
    rw [hp]
    simp only [Option.isSome_some, true_and]
    constructor
    · intro h
      split at h
      · cases h
      · rename_i e0 rest hb
        split at h
        · cases h
        · rename_i es hn
          split at h
          · cases h
          · rename_i hl
            split at h
            · cases h
            · rename_i e1 rest'
              split at h
              · cases h
              · rename_i es' hs
                have hl : es.length = 1 := by simpa using hl
                obtain ⟨x, rfl⟩ := List.length_eq_one_iff.1 hl
                exact ⟨e0, x, e1, es', rest', (body_eq _ _).2 hb.symm, (named_iff _ "name" _ _).1 hn, (named_iff _ "synopsis" _ _).1 hs⟩
    · rintro ⟨name, x, synopsis, es, rest, hb, hn, hs⟩
      have hb := (body_eq _ _).1 hb
      have hn := (named_iff _ "name" _ _).2 hn
      have hs := (named_iff _ "synopsis" _ _).2 hs
      rw [← hb]
      dsimp only
      rw [hn]
      dsimp only
      rw [if_neg (by simp), hs]

/-- C31: documents of another type are never reported. -/
theorem other_types (lower : Text → Text) (doc : List El) (doctype : Text) (h : doctype ≠ "manpage".toList) :
    validate lower doc doctype = .ok [] := if_neg h

/-- Validation crashes exactly for manual pages without content and for those that end with a proper `Name` section. -/
theorem crashes_iff (lower : Text → Text) (doc : List El) (doctype : Text) :
    (∃ p, validate lower doc doctype = .error p) ↔
      doctype = "manpage".toList ∧ (Body doc [] ∨ ∃ name x, Body doc [name] ∧ Named lower "name" name [x]) := by
  unfold validate
  by_cases hd : doctype = "manpage".toList
  · rw [if_pos hd]
    simp only [hd, true_and]
    unfold validateManpage
    constructor
    · rintro ⟨p, h⟩
      split at h
      · rename_i hb; exact Or.inl ((body_eq _ _).2 hb.symm)
      · rename_i e0 rest hb
        split at h
        · cases h
        · rename_i es hn
          split at h
          · cases h
          · rename_i hl
            have hl : es.length = 1 := by simpa using hl
            obtain ⟨x, rfl⟩ := List.length_eq_one_iff.1 hl
            split at h
            · exact Or.inr ⟨e0, x, (body_eq _ _).2 hb.symm, (named_iff _ "name" _ _).1 hn⟩
            · split at h <;> cases h
    · rintro (hb | ⟨name, x, hb, hn⟩)
      · rw [← (body_eq _ _).1 hb]; exact ⟨_, rfl⟩
      · rw [← (body_eq _ _).1 hb]
        dsimp only
        rw [(named_iff _ "name" _ _).2 hn]
        dsimp only
        rw [if_neg (by simp)]
        exact ⟨_, rfl⟩
  · rw [if_neg hd]
    constructor
    · rintro ⟨p, h⟩; cases h
    · intro h; exact absurd h.1 hd

/-- C31: apart from these cases, validation of a document that lacks the structure reports a problem. -/
theorem problem_reported (lower : Text → Text) (doc : List El) (h : ¬ IsManpage lower doc)
    (hb : ¬ Body doc []) (hn : ∀ name x, Named lower "name" name [x] → ¬ Body doc [name]) :
    ∃ p ps, validate lower doc "manpage".toList = .ok (p :: ps) := by
  cases e : validate lower doc "manpage".toList with
  | error p =>
    obtain ⟨_, h' | ⟨name, x, h1, h2⟩⟩ := (crashes_iff lower doc "manpage".toList).1 ⟨p, e⟩
    · exact absurd h' hb
    · exact absurd h1 (hn name x h2)
  | ok ps =>
    cases ps with
    | nil => exact absurd ((no_problem_iff lower doc).1 e) h
    | cons p ps => exact ⟨p, ps, rfl⟩

/-! ### From validation to rendering -/

/-- The document does not declare or reset its own type. -/
def NoDoctype (doc : List El) : Prop :=
  (∀ hs, .header hs ∈ doc → ∀ h ∈ hs, (∀ v, h ≠ .decl "doctype" v) ∧ h ≠ .reset "doctype") ∧ (∀ v, .decl "doctype" v ∉ doc) ∧ .reset "doctype" ∉ doc

theorem header_mem : ∀ (doc : List El) (hs : List HElem), header doc = some hs → .header hs ∈ doc := by
  intro doc
  induction doc with
  | nil => intro hs h; cases h
  | cons e es ih =>
    intro hs h
    cases e with
    | header hs' => cases h; simp
    | blank => exact List.mem_cons_of_mem _ (ih hs h)
    | front => exact List.mem_cons_of_mem _ (ih hs h)
    | _ => cases h

theorem headerAttrs_doctype : ∀ (hs : List HElem) (a : AMap Val), (∀ h ∈ hs, (∀ v, h ≠ .decl "doctype" v) ∧ h ≠ .reset "doctype") →
    (headerAttrs hs a).get "doctype" = a.get "doctype" := by
  intro hs
  induction hs with
  | nil => intros; rfl
  | cons h hs ih =>
    intro a hh
    have h0 := hh h (by simp)
    cases h with
    | decl n v =>
      show (headerAttrs hs (a.set n v)).get _ = _
      rw [ih _ (fun x hx => hh x (by simp [hx])), AMap.get_set_ne _ _ (fun e => h0.1 v (by rw [e]))]
    | reset n =>
      show (headerAttrs hs (a.del n)).get _ = _
      rw [ih _ (fun x hx => hh x (by simp [hx])), AMap.get_del_ne _ (fun e => h0.2 (by rw [e]))]
    | other n => exact ih a (fun x hx => hh x (by simp [hx]))

theorem leadingAttrs_doctype : ∀ (es : List El) (a : AMap Val), (∀ v, .decl "doctype" v ∉ es) → .reset "doctype" ∉ es →
    (leadingAttrs es a).get "doctype" = a.get "doctype" := by
  intro es
  induction es with
  | nil => intros; rfl
  | cons e es ih =>
    intro a h1 h2
    cases e with
    | decl n v =>
      show (leadingAttrs es (a.set n v)).get _ = _
      rw [ih _ (fun v hv => h1 v (by simp [hv])) (fun hv => h2 (by simp [hv])), AMap.get_set_ne _ _ (fun e => h1 v (by rw [e]; simp))]
    | reset n =>
      show (leadingAttrs es (a.del n)).get _ = _
      rw [ih _ (fun v hv => h1 v (by simp [hv])) (fun hv => h2 (by simp [hv])), AMap.get_del_ne _ (fun e => h2 (by rw [e]; simp))]
    | _ => rfl

theorem renderAttrs_doctype (doc : List El) (h : NoDoctype doc) (a : AMap Val) : (renderAttrs doc a).get "doctype" = a.get "doctype" := by
  unfold renderAttrs
  rw [leadingAttrs_doctype doc _ h.2.1 h.2.2]
  cases hh : header doc with
  | none => rfl
  | some hs => exact headerAttrs_doctype hs a (h.1 hs (header_mem doc hs hh))

theorem doctype_congr (fmt : Val → Text) (a b : AMap Val) (h : AMap.get a "doctype" = AMap.get b "doctype") (d : Text) :
    getAsStringWithDefault fmt a "doctype" d = getAsStringWithDefault fmt b "doctype" d := by
  unfold getAsStringWithDefault; rw [h]

/-- A manual page with the required structure, whose `Name` section holds a paragraph, is rendered as a manual page, when the type
is given in the configuration. -/
theorem valid_rendered (lower : Text → Text) (fmt : Val → Text) (config : AMap Val) (doc : List El) (hd : NoDoctype doc)
    (hc : config.get "doctype" = some (.str "manpage".toList)) (hh : HasHeader doc)
    (h : ∃ name n synopsis es rest, Body doc (name :: synopsis :: rest) ∧ Named lower "name" name [.paragraph n] ∧ Named lower "synopsis" synopsis es) :
    convert lower fmt config doc = .ok .manpage := by
  obtain ⟨name, n, synopsis, es, rest, hb, hn, hs⟩ := h
  have hv : validate lower doc "manpage".toList = .ok [] := (no_problem_iff lower doc).2 ⟨hh, name, .paragraph n, synopsis, es, rest, hb, hn, hs⟩
  have ht : getAsStringWithDefault fmt config "doctype" "article".toList = "manpage".toList := by
    unfold getAsStringWithDefault; rw [hc]
  unfold convert
  rw [ht, hv]
  dsimp only
  unfold splitAndRender
  rw [doctype_congr fmt _ config (renderAttrs_doctype doc hd config), ht, if_pos rfl]
  unfold renderManpage
  rw [← (body_eq _ _).1 hb]
  obtain ⟨t, rfl, _⟩ := hn
  rfl

/-- A document in which a problem is found is rendered as an article. -/
theorem invalid_rendered (lower : Text → Text) (fmt : Val → Text) (config : AMap Val) (doc : List El) (hd : NoDoctype doc) (p : Problem) (ps : List Problem)
    (hc : config.get "doctype" = some (.str "manpage".toList)) (hv : validate lower doc "manpage".toList = .ok (p :: ps)) :
    convert lower fmt config doc = .ok .article := by
  have ht : getAsStringWithDefault fmt config "doctype" "article".toList = "manpage".toList := by
    unfold getAsStringWithDefault; rw [hc]
  unfold convert
  rw [ht, hv]
  dsimp only
  unfold splitAndRender
  rw [doctype_congr fmt _ _ (renderAttrs_doctype doc hd _), if_neg]
  unfold getAsStringWithDefault
  rw [AMap.get_set_self]
  show ¬ "article".toList = "manpage".toList
  decide

/-- Without a type in the configuration and in the document, the document is rendered as an article. -/
theorem article_rendered (lower : Text → Text) (fmt : Val → Text) (config : AMap Val) (doc : List El) (hd : NoDoctype doc)
    (hc : config.get "doctype" = none) : convert lower fmt config doc = .ok .article := by
  have ht : getAsStringWithDefault fmt config "doctype" "article".toList = "article".toList := by
    unfold getAsStringWithDefault; rw [hc]
  unfold convert
  rw [ht, other_types lower doc _ (by decide)]
  dsimp only
  unfold splitAndRender
  rw [doctype_congr fmt _ config (renderAttrs_doctype doc hd config), ht, if_neg (by decide)]

/-! ### Examples and findings -/

private def low (t : Text) : Text := t.map (fun c => if 'A' ≤ c ∧ c ≤ 'Z' then Char.ofNat (c.toNat + 32) else c)
private def nameS (es : List El) : El := .section 1 [.str "Name".toList] es
private def synS : El := .section 1 [.str "SYNOPSIS".toList] []
private def fmt0 (_ : Val) : Text := []

example : validate low [.header [], nameS [.paragraph 0], synS] "manpage".toList = .ok [] := rfl
example : IsManpage low [.header [], nameS [.paragraph 0], synS] := (no_problem_iff _ _).1 rfl
example : validate low [nameS [.paragraph 0, .paragraph 1], synS] "manpage".toList = .ok [.noHeader, .nameContent] := rfl

/-- FINDING: validation panics on an empty document and on one that ends after its `Name` section. -/
theorem finding_panics :
    validate low [.header []] "manpage".toList = .error .index ∧
    validate low [.header [], nameS [.paragraph 0]] "manpage".toList = .error .index := ⟨rfl, rfl⟩

/-- FINDING: a `Name` section with a single element that is not a paragraph passes validation, and rendering panics. -/
theorem finding_not_a_paragraph :
    validate low [.header [], nameS [.other 0], synS] "manpage".toList = .ok [] ∧
    convert low fmt0 [("doctype", .str "manpage".toList)] [.header [], nameS [.other 0], synS] = .error .assertion := ⟨rfl, rfl⟩

/-- FINDING: front matter (or a declaration) before the `Name` section makes a proper manual page be reported. -/
theorem finding_front_matter :
    validate low [.front, .header [], nameS [.paragraph 0], synS] "manpage".toList = .ok [.noName] ∧
    validate low [.header [], .decl "x" (.str []), nameS [.paragraph 0], synS] "manpage".toList = .ok [.noName] := ⟨rfl, rfl⟩

/-- FINDING: a document that declares itself to be a manual page is not validated at all, and rendering panics if it does not have
the structure; the same happens after problems have been reported and the type was changed to `article`. -/
theorem finding_declared_doctype :
    convert low fmt0 [] [.header [.decl "doctype" (.str "manpage".toList)], .paragraph 0] = .error .assertion ∧
    validate low [.header [.decl "doctype" (.str "manpage".toList)], .paragraph 0] "manpage".toList = .ok [.noName] ∧
    convert low fmt0 [("doctype", .str "manpage".toList)] [.header [.decl "doctype" (.str "manpage".toList)], .paragraph 0] = .error .assertion :=
  ⟨rfl, rfl, rfl⟩

end Verif.C31
