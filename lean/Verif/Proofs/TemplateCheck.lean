import Verif.Proofs.Markup
import Verif.Model.Template
/-!
A checker for templates: it follows the scanner of `Proofs/Markup.lean` through a template, whatever the
values of the fields are, provided that those written in the text are well-formed fragments and that
those written in attribute values have no character that ends the value.
-/
namespace Verif.Html
open Verif.Tmpl

/-- What is required of a field. -/
inductive Kind where
  /-- a well-formed fragment -/
  | markup
  /-- fit for an attribute value -/
  | value
  /-- both -/
  | both
  /-- an alignment: the functions `halign` and `valign` make an attribute value of it -/
  | align
  /-- a list of attribute values -/
  | values
deriving DecidableEq, Repr

/-- An alignment is one of `<`, `^`, `>` or is fit for an attribute value. -/
def Align (R : Rules) (t : Text) : Prop := t = "<".toList ∨ t = "^".toList ∨ t = ">".toList ∨ Value R t

def Kind.ok (R : Rules) : Kind → Val → Prop
  | .markup, v => ∀ t, v.shown = some t → Markup R t
  | .value, v => ∀ t, v.shown = some t → Value R t
  | .both, v => ∀ t, v.shown = some t → Markup R t ∧ Value R t
  | .align, v => ∀ t, v.shown = some t → Align R t
  | .values, v => match v with
    | .strs l => ∀ t ∈ l, Value R t
    | _ => False

/-- What the fields of a template are required to be. -/
abbrev Fields := AMap Kind

/-- The data meet the requirements. -/
def Fits (R : Rules) (K : Fields) (env : Env) : Prop :=
  ∀ f k, K.get f = some k → ∀ v, env.get f = some v → k.ok R v

/-- Whether a field of this kind may be written, by this function, in this mode. -/
def mayWrite (fn : Fn) (k : Option Kind) (m : Mode) : Bool :=
  match fn, k, m with
  | .asIs, some .markup, .text => true
  | .asIs, some .both, .text => true
  | .trimLineFeedSuffix, some .markup, .text => true
  | .asIs, some .value, .val _ => true
  | .asIs, some .both, .val _ => true
  | .toLower, some .value, .val _ => true
  | .toLower, some .both, .val _ => true
  | .halign, some .align, .val _ => true
  | .valign, some .align, .val _ => true
  | _, _, _ => false

/-- What is known of the conditions. -/
abbrev Known := List (Cond × Bool)

def known (A : Known) : Cond → Option Bool
  | .isNot f => (A.lookup (.is f)).map (fun b => !b)
  | c => A.lookup c

/-- What a condition tells. -/
def learn (c : Cond) (b : Bool) (A : Known) : Known :=
  match c with
  | .isNot f => (.is f, !b) :: A
  | c => (c, b) :: A

/-- The state reached, if it is always the same. -/
def same : List (Known × St) → Option St
  | [] => none
  | (_, s) :: l => if l.all (fun p => p.2 = s) then some s else none

def bindAll (g : Known → St → Option (List (Known × St))) : List (Known × St) → Option (List (Known × St))
  | [] => some []
  | (A, s) :: l => (g A s).bind (fun x => (bindAll g l).map (x ++ ·))

/-- The checker: the states in which a template may end, with what is then known of the conditions. -/
def run (R : Rules) (K : Fields) : Tm → Known → St → Option (List (Known × St))
  | .done, A, s => some [(A, s)]
  | .text t k, A, s => (scan R s t.toList).bind (fun s' => run R K k A s')
  | .out fn f k, A, s => if mayWrite fn (K.get f) s.mode then run R K k A s else none
  | .cond c a b k, A, s =>
    match known A c with
    | some true => (run R K a A s).bind (bindAll (run R K k))
    | some false => (run R K b A s).bind (bindAll (run R K k))
    | none =>
      (run R K a (learn c true A) s).bind (fun la =>
        (run R K b (learn c false A) s).bind (fun lb =>
          match same (la ++ lb) with
          | some s' => run R K k A s'
          | none => bindAll (run R K k) (la ++ lb)))
  | .loop f body k, A, s =>
    if K.get f = some .values ∧ s.mode = .text then
      (run R ((elemField, .value) :: K) body [] s).bind (fun l =>
        if l.all (fun p => p.2 = s) then run R K k A s else none)
    else none

/-- What is known of the conditions holds. -/
def Holds (env : Env) (A : Known) : Prop := ∀ p ∈ A, p.1.eval env = some p.2

theorem lookup_mem {A : Known} {c : Cond} {b : Bool} (h : A.lookup c = some b) : (c, b) ∈ A := by
  induction A with
  | nil => cases h
  | cons p A ih =>
    obtain ⟨c', b'⟩ := p
    rw [List.lookup_cons] at h
    split at h
    · rename_i e
      have e : c = c' := by simpa using e
      have h : b' = b := by simpa using h
      subst e; subst h; exact List.mem_cons_self ..
    · exact List.mem_cons_of_mem _ (ih h)

theorem known_sound {env A c b} (hA : Holds env A) (h : known A c = some b) : c.eval env = some b := by
  cases c with
  | isNot f =>
    simp only [known] at h
    cases hl : A.lookup (.is f) with
    | none => rw [hl] at h; cases h
    | some b' =>
      rw [hl] at h
      have h1 := hA _ (lookup_mem hl)
      simp only [Cond.eval] at h1 ⊢
      cases hg : env.get f with
      | none => rw [hg] at h1; cases h1
      | some v =>
        rw [hg] at h1
        simp only [Option.map_some, Option.some.injEq] at h1 h ⊢
        rw [h1]; exact h
  | is f => exact hA _ (lookup_mem h)
  | nonEmpty f => exact hA _ (lookup_mem h)
  | equals f n => exact hA _ (lookup_mem h)
  | any fs => exact hA _ (lookup_mem h)

theorem learn_sound {env A c b} (hA : Holds env A) (h : c.eval env = some b) : Holds env (learn c b A) := by
  cases c with
  | isNot f =>
    intro p hp
    rcases List.mem_cons.mp hp with rfl | hp
    · simp only [Cond.eval] at h ⊢
      cases hg : env.get f with
      | none => rw [hg] at h; cases h
      | some v =>
        rw [hg] at h
        simp only [Option.map_some, Option.some.injEq] at h ⊢
        rw [← h]; simp
    · exact hA p hp
  | is f =>
    intro p hp
    rcases List.mem_cons.mp hp with rfl | hp
    · exact h
    · exact hA p hp
  | nonEmpty f =>
    intro p hp
    rcases List.mem_cons.mp hp with rfl | hp
    · exact h
    · exact hA p hp
  | equals f n =>
    intro p hp
    rcases List.mem_cons.mp hp with rfl | hp
    · exact h
    · exact hA p hp
  | any fs =>
    intro p hp
    rcases List.mem_cons.mp hp with rfl | hp
    · exact h
    · exact hA p hp

theorem same_sound {l : List (Known × St)} {s : St} (h : same l = some s) : ∀ p ∈ l, p.2 = s := by
  cases l with
  | nil => cases h
  | cons p l =>
    simp only [same] at h
    split at h
    · rename_i ha
      cases h
      intro q hq
      rcases List.mem_cons.mp hq with rfl | hq
      · rfl
      · have := List.all_eq_true.mp ha q hq
        simpa using this
    · cases h

theorem bindAll_sound {g : Known → St → Option (List (Known × St))} {l outs : List (Known × St)}
    (h : bindAll g l = some outs) : ∀ p ∈ l, ∃ x, g p.1 p.2 = some x ∧ ∀ q ∈ x, q ∈ outs := by
  induction l generalizing outs with
  | nil => intro p hp; cases hp
  | cons p l ih =>
    obtain ⟨A, s⟩ := p
    simp only [bindAll] at h
    cases hg : g A s with
    | none => rw [hg] at h; cases h
    | some x =>
      rw [hg] at h
      cases hb : bindAll g l with
      | none => rw [hb] at h; cases h
      | some y =>
        rw [hb] at h
        simp only [Option.bind_some, Option.map_some, Option.some.injEq] at h
        subst h
        intro q hq
        rcases List.mem_cons.mp hq with rfl | hq
        · exact ⟨x, hg, fun q hq => List.mem_append_left _ hq⟩
        · obtain ⟨z, hz, hz'⟩ := ih hb q hq
          exact ⟨z, hz, fun q hq => List.mem_append_right _ (hz' q hq)⟩

/-- More open elements below. -/
def St.over (s : St) (base : List Text) : St := ⟨s.mode, s.stack ++ base⟩

theorem openTag_over (R n stk base) : openTag R n (stk ++ base) = (openTag R n stk).over base := by
  unfold openTag St.over; split <;> rfl

theorem tagEnd_over {R n stk base c s'} (h : tagEnd R n stk c = some s') :
    tagEnd R n (stk ++ base) c = some (s'.over base) := by
  unfold tagEnd at h ⊢
  by_cases h1 : c = '>'
  · rw [if_pos h1] at h ⊢; cases h; rw [openTag_over]
  · rw [if_neg h1] at h ⊢
    by_cases h2 : c = '/'
    · rw [if_pos h2] at h ⊢
      by_cases h3 : R.xml = true ∨ Void R n
      · rw [if_pos h3] at h ⊢; cases h; rfl
      · rw [if_neg h3] at h; cases h
    · rw [if_neg h2] at h ⊢
      by_cases h3 : Blank R c
      · rw [if_pos h3] at h ⊢; cases h; rfl
      · rw [if_neg h3] at h; cases h

theorem step_over {R s c s' base} (h : step R s c = some s') : step R (s.over base) c = some (s'.over base) := by
  obtain ⟨m, stk⟩ := s
  cases m with
  | text =>
    simp only [St.over]
    unfold step at h ⊢; dsimp only at h ⊢
    split at h
    · rename_i h1; rw [if_pos h1]; cases h; rfl
    · rename_i h1
      split at h
      · cases h
      · rename_i h2; rw [if_neg h1, if_neg h2]; cases h; rfl
  | lt =>
    simp only [St.over]
    unfold step at h ⊢; dsimp only at h ⊢
    split at h
    · rename_i h1; rw [if_pos h1]; cases h; rfl
    · rename_i h1
      split at h
      · rename_i h2; rw [if_neg h1, if_pos h2]; cases h; rfl
      · cases h
  | name n =>
    simp only [St.over]
    unfold step at h ⊢; dsimp only at h ⊢
    split at h
    · rename_i h1; rw [if_pos h1]; cases h; rfl
    · rename_i h1; rw [if_neg h1]; exact tagEnd_over h
  | blank n =>
    simp only [St.over]
    unfold step at h ⊢; dsimp only at h ⊢
    split at h
    · rename_i h1; rw [if_pos h1]; cases h; rfl
    · rename_i h1; rw [if_neg h1]; exact tagEnd_over h
  | attr n =>
    simp only [St.over]
    unfold step at h ⊢; dsimp only at h ⊢
    split at h
    · rename_i h1; rw [if_pos h1]; cases h; rfl
    · rename_i h1
      split at h
      · rename_i h2; rw [if_neg h1, if_pos h2]; cases h; rfl
      · rename_i h2
        split at h
        · cases h
        · rename_i h3; rw [if_neg h1, if_neg h2, if_neg h3]; exact tagEnd_over h
  | eq n =>
    simp only [St.over]
    unfold step at h ⊢; dsimp only at h ⊢
    split at h
    · rename_i h1; rw [if_pos h1]; cases h; rfl
    · cases h
  | val n =>
    simp only [St.over]
    unfold step at h ⊢; dsimp only at h ⊢
    split at h
    · rename_i h1; rw [if_pos h1]; cases h; rfl
    · rename_i h1
      split at h
      · rename_i h2; rw [if_neg h1, if_pos h2]; cases h; rfl
      · cases h
  | aft n => exact tagEnd_over h
  | slash =>
    simp only [St.over]
    unfold step at h ⊢; dsimp only at h ⊢
    split at h
    · rename_i h1; rw [if_pos h1]; cases h; rfl
    · cases h
  | clo0 =>
    simp only [St.over]
    unfold step at h ⊢; dsimp only at h ⊢
    split at h
    · rename_i h1; rw [if_pos h1]; cases h; rfl
    · cases h
  | clo n =>
    simp only [St.over]
    unfold step at h ⊢; dsimp only at h ⊢
    split at h
    · rename_i h1; rw [if_pos h1]; cases h; rfl
    · rename_i h1
      split at h
      · rename_i h2
        rw [if_neg h1, if_pos h2]
        cases stk with
        | nil => cases h
        | cons m rest =>
          simp only at h
          split at h
          · rename_i h3
            cases h
            show (if m = n then _ else _) = _
            rw [if_pos h3]; rfl
          · cases h
      · cases h

theorem scan_over {R base} : ∀ {t : Text} {s s' : St}, scan R s t = some s' →
    scan R (s.over base) t = some (s'.over base)
  | [], s, s', h => by cases h; rfl
  | c :: t, s, s', h => by
    unfold scan at h ⊢
    cases hs : step R s c with
    | none => rw [hs] at h; cases h
    | some s1 => rw [hs] at h; rw [step_over hs]; exact scan_over h

/-! ### What the functions of the templates preserve -/

/-- Lower-casing keeps a text fit for an attribute value. -/
def LowerOk (R : Rules) (lower : Text → Text) : Prop := ∀ t, Value R t → Value R (lower t)

/-- Only `>` leads from a tag to the text. -/
theorem step_to_text {R s c s'} (h : step R s c = some s') (hm : s'.mode = .text) (hc : c ≠ '>') :
    s.mode = .text ∧ c ≠ '<' := by
  obtain ⟨m, stk⟩ := s
  have hte : ∀ n, tagEnd R n stk c = some s' → False := by
    intro n h
    unfold tagEnd at h
    rw [if_neg hc] at h
    split at h
    · split at h
      · cases h; cases hm
      · cases h
    · split at h
      · cases h; cases hm
      · cases h
  cases m with
  | text =>
    unfold step at h; dsimp only at h
    split at h
    · cases h; cases hm
    · rename_i h1; exact ⟨rfl, h1⟩
  | lt =>
    unfold step at h; dsimp only at h
    split at h
    · cases h; cases hm
    · split at h
      · cases h; cases hm
      · cases h
  | name n =>
    unfold step at h; dsimp only at h
    split at h
    · cases h; cases hm
    · exact (hte _ h).elim
  | blank n =>
    unfold step at h; dsimp only at h
    split at h
    · cases h; cases hm
    · exact (hte _ h).elim
  | attr n =>
    unfold step at h; dsimp only at h
    split at h
    · cases h; cases hm
    · split at h
      · cases h; cases hm
      · split at h
        · cases h
        · exact (hte _ h).elim
  | eq n =>
    unfold step at h; dsimp only at h
    split at h
    · cases h; cases hm
    · cases h
  | val n =>
    unfold step at h; dsimp only at h
    split at h
    · cases h; cases hm
    · split at h
      · cases h; cases hm
      · cases h
  | aft n => exact (hte _ h).elim
  | slash =>
    unfold step at h; dsimp only at h
    rw [if_neg hc] at h; cases h
  | clo0 =>
    unfold step at h; dsimp only at h
    split at h
    · cases h; cases hm
    · cases h
  | clo n =>
    unfold step at h; dsimp only at h
    split at h
    · cases h; cases hm
    · first | (cases h; done) | (rw [if_neg hc] at h; cases h)

theorem step_text_plain {R stk c} (h1 : c ≠ '<') (h2 : c ≠ '>') : step R ⟨.text, stk⟩ c = some ⟨.text, stk⟩ := by
  unfold step; dsimp only; rw [if_neg h1, if_neg h2]

theorem Plain.scan {R stk} : ∀ {t : Text}, Plain t → Html.scan R ⟨.text, stk⟩ t = some ⟨.text, stk⟩
  | [], _ => rfl
  | c :: t, h => by
    unfold Html.scan
    rw [step_text_plain (h c (List.mem_cons_self ..)).1 (h c (List.mem_cons_self ..)).2]
    exact Plain.scan fun x hx => h x (List.mem_cons_of_mem _ hx)

theorem Plain.markup {R t} (h : Plain t) : Markup R t := markup_iff.mpr h.scan

/-- A text that ends in the text mode after plain text was in it before. -/
theorem scan_plain_back {R} : ∀ {t : Text} {s s' : St}, Plain t → scan R s t = some s' → s'.mode = .text → s = s'
  | [], s, s', _, h, _ => by cases h; rfl
  | c :: t, s, s', hp, h, hm => by
    unfold scan at h
    cases hs : step R s c with
    | none => rw [hs] at h; cases h
    | some s1 =>
      rw [hs] at h
      have e := scan_plain_back (fun x hx => hp x (List.mem_cons_of_mem _ hx)) h hm
      subst e
      have hc := hp c (List.mem_cons_self ..)
      obtain ⟨h1, _⟩ := step_to_text hs hm hc.2
      obtain ⟨m, stk⟩ := s
      cases h1
      rw [step_text_plain hc.1 hc.2] at hs
      cases hs; rfl

/-- Plain text at the end may be removed. -/
theorem Markup.drop_end {R t u} (h : Markup R (t ++ u)) (hu : Plain u) : Markup R t := by
  have h1 := markup_iff.mp h
  rw [scan_append] at h1
  cases ht : Html.scan R ⟨.text, []⟩ t with
  | none => rw [ht] at h1; cases h1
  | some s =>
    rw [ht] at h1
    have := scan_plain_back hu h1 rfl
    subst this
    exact markup_iff.mpr ht

/-- Plain text at the beginning may be removed. -/
theorem Markup.drop_start {R t u} (h : Markup R (u ++ t)) (hu : Plain u) : Markup R t := by
  have h1 := markup_iff.mp h
  rw [scan_append, hu.scan] at h1
  exact markup_iff.mpr h1

theorem Markup.append {R t u} (h : Markup R t) (h' : Markup R u) : Markup R (t ++ u) := by
  rw [markup_iff, scan_append, markup_iff.mp h]; exact markup_iff.mp h'

theorem trimSuffix_split (suf t : Text) : ∃ u, t = trimSuffix suf t ++ u ∧ (u = [] ∨ u = suf) := by
  unfold trimSuffix
  split
  · rename_i h
    obtain ⟨p, rfl⟩ := List.isSuffixOf_iff_suffix.mp h
    exact ⟨suf, by simp, Or.inr rfl⟩
  · exact ⟨[], by simp, Or.inl rfl⟩

theorem Markup.trimSuffix {R t} (suf : Text) (hs : Plain suf) (h : Markup R t) :
    Markup R (Tmpl.trimSuffix suf t) := by
  obtain ⟨u, e, hu⟩ := trimSuffix_split suf t
  rw [e] at h
  rcases hu with rfl | rfl
  · simpa using h
  · exact h.drop_end hs

theorem align_value {R t} (h : Align R t) : Value R (Tmpl.halign t) ∧ Value R (Tmpl.valign t) := by
  have lit : ∀ s : Text, (∀ c ∈ s, c ≠ '"' ∧ c ≠ '<' ∧ c ≠ '\n') → Value R s :=
    fun s hs c hc => ⟨(hs c hc).1, (hs c hc).2.1, fun _ => (hs c hc).2.2⟩
  by_cases h1 : t = "<".toList
  · subst h1; exact ⟨lit _ (by decide), lit _ (by decide)⟩
  · by_cases h2 : t = "^".toList
    · subst h2; exact ⟨lit _ (by decide), lit _ (by decide)⟩
    · by_cases h3 : t = ">".toList
      · subst h3; exact ⟨lit _ (by decide), lit _ (by decide)⟩
      · have hv : Value R t := by
          rcases h with h | h | h | h
          · exact absurd h h1
          · exact absurd h h2
          · exact absurd h h3
          · exact h
        unfold Tmpl.halign Tmpl.valign
        rw [if_neg h1, if_neg h2, if_neg h3, if_neg h1, if_neg h2, if_neg h3]
        exact ⟨hv, hv⟩

/-- Writing a field leaves the scanner where it is. -/
theorem write_sound {R lower fn k s v t base} (hl : LowerOk R lower) (hm : mayWrite fn (some k) s.mode = true)
    (hk : Kind.ok R k v) (hv : v.shown = some t) :
    scan R (St.over s base) (fn.call lower t) = some (St.over s base) := by
  obtain ⟨m, stk⟩ := s
  simp only [St.over]
  have inText : ∀ {t}, Markup R t → scan R ⟨.text, stk ++ base⟩ t = some ⟨.text, stk ++ base⟩ :=
    fun h => h.scan _
  unfold mayWrite at hm
  split at hm
  · rename_i e1 e2; cases e1; cases e2; exact inText (hk t hv)
  · rename_i e1 e2; cases e1; cases e2; exact inText (hk t hv).1
  · rename_i e1 e2; cases e1; cases e2
    exact inText (Markup.trimSuffix _ (by intro c hc; revert hc; simp; rintro rfl; decide) (hk t hv))
  · rename_i e1 e2; cases e1; cases e2; exact scan_val (hk t hv)
  · rename_i e1 e2; cases e1; cases e2; exact scan_val (hk t hv).2
  · rename_i e1 e2; cases e1; cases e2; exact scan_val (hl _ (hk t hv))
  · rename_i e1 e2; cases e1; cases e2; exact scan_val (hl _ (hk t hv).2)
  · rename_i e1 e2; cases e1; cases e2; exact scan_val (align_value (hk t hv)).1
  · rename_i e1 e2; cases e1; cases e2; exact scan_val (align_value (hk t hv)).2
  · cases hm

/-- The checker is right: the text written by the template leads the scanner to one of the states found. -/
theorem run_sound {R lower} (hl : LowerOk R lower) : ∀ (tm : Tm) (K : Fields) (A : Known) (s : St)
    (outs : List (Known × St)) (env : Env) (t : Text), run R K tm A s = some outs → Fits R K env → Holds env A →
    tm.render lower env = some t →
    ∃ p ∈ outs, Holds env p.1 ∧ ∀ base, scan R (s.over base) t = some (p.2.over base) := by
  intro tm
  induction tm with
  | done =>
    intro K A s outs env t h hf hA ht
    cases h; cases ht
    exact ⟨(A, s), List.mem_cons_self .., hA, fun _ => rfl⟩
  | text w k ih =>
    intro K A s outs env t h hf hA ht
    simp only [run] at h
    cases hs : scan R s w.toList with
    | none => rw [hs] at h; cases h
    | some s1 =>
      rw [hs] at h
      simp only [Tm.render] at ht
      cases hk : k.render lower env with
      | none => rw [hk] at ht; cases ht
      | some u =>
        rw [hk] at ht; cases ht
        obtain ⟨p, hp, hA', hsc⟩ := ih K A s1 outs env u h hf hA hk
        refine ⟨p, hp, hA', fun base => ?_⟩
        rw [scan_append, scan_over hs]; exact hsc base
  | out fn f k ih =>
    intro K A s outs env t h hf hA ht
    simp only [run] at h
    split at h
    · rename_i hm
      simp only [Tm.render] at ht
      cases hv : env.get f with
      | none => rw [hv] at ht; cases ht
      | some v =>
        rw [hv] at ht
        cases hv2 : v.shown with
        | none => simp only [Option.bind_some, hv2] at ht; cases ht
        | some w =>
          simp only [Option.bind_some, hv2] at ht
          cases hk : k.render lower env with
          | none => rw [hk] at ht; cases ht
          | some u =>
            rw [hk] at ht; cases ht
            cases hK : K.get f with
            | none =>
              rw [hK] at hm
              unfold mayWrite at hm
              split at hm <;> first | (rename_i e1 e2; cases e2; done) | (rename_i e1 e2 _; cases e2; done) | (cases hm; done) | contradiction
            | some kd =>
              rw [hK] at hm
              obtain ⟨p, hp, hA', hsc⟩ := ih K A s outs env u h hf hA hk
              refine ⟨p, hp, hA', fun base => ?_⟩
              rw [scan_append, write_sound hl hm (hf f kd hK v hv) hv2]; exact hsc base
    · cases h
  | cond c a b k iha ihb ihk =>
    intro K A s outs env t h hf hA ht
    simp only [Tm.render] at ht
    cases hc : c.eval env with
    | none => rw [hc] at ht; cases ht
    | some r =>
      rw [hc] at ht
      -- the branch taken, and what follows it
      have key : ∀ w, (if r then a.render lower env else b.render lower env) = some w →
          ∀ u, k.render lower env = some u → t = w ++ u →
          ∃ p ∈ outs, Holds env p.1 ∧ ∀ base, scan R (s.over base) t = some (p.2.over base) := by
        intro w hw u hu e
        subst e
        have fin : ∀ q : Known × St, Holds env q.1 → (∀ base, scan R (s.over base) w = some (q.2.over base)) →
            ∀ x, run R K k q.1 q.2 = some x → (∀ z ∈ x, z ∈ outs) →
            ∃ p ∈ outs, Holds env p.1 ∧ ∀ base, scan R (s.over base) (w ++ u) = some (p.2.over base) := by
          intro q hq hsc x hx hsub
          obtain ⟨p, hp, hA', hsc'⟩ := ihk K q.1 q.2 x env u hx hf hq hu
          refine ⟨p, hsub p hp, hA', fun base => ?_⟩
          rw [scan_append, hsc base]; exact hsc' base
        simp only [run] at h
        cases hkn : known A c with
        | some r' =>
          have hr := known_sound hA hkn
          rw [hc] at hr
          cases hr
          rw [hkn] at h
          cases r with
          | true =>
            simp only at h
            cases hra : run R K a A s with
            | none => rw [hra] at h; cases h
            | some la =>
              rw [hra] at h
              obtain ⟨q, hq, hAq, hsc⟩ := iha K A s la env w hra hf hA (by simpa using hw)
              obtain ⟨x, hx, hsub⟩ := bindAll_sound h q hq
              exact fin q hAq hsc x hx hsub
          | false =>
            simp only at h
            cases hra : run R K b A s with
            | none => rw [hra] at h; cases h
            | some la =>
              rw [hra] at h
              obtain ⟨q, hq, hAq, hsc⟩ := ihb K A s la env w hra hf hA (by simpa using hw)
              obtain ⟨x, hx, hsub⟩ := bindAll_sound h q hq
              exact fin q hAq hsc x hx hsub
        | none =>
          rw [hkn] at h
          simp only at h
          cases hra : run R K a (learn c true A) s with
          | none => rw [hra] at h; cases h
          | some la =>
            rw [hra] at h
            simp only [Option.bind_some] at h
            cases hrb : run R K b (learn c false A) s with
            | none => rw [hrb] at h; cases h
            | some lb =>
              rw [hrb] at h
              simp only [Option.bind_some] at h
              have hq : ∃ q ∈ la ++ lb, Holds env q.1 ∧ ∀ base, scan R (s.over base) w = some (q.2.over base) := by
                cases r with
                | true =>
                  obtain ⟨q, hq, hAq, hsc⟩ := iha K _ s la env w hra hf (learn_sound hA hc) (by simpa using hw)
                  exact ⟨q, List.mem_append_left _ hq, hAq, hsc⟩
                | false =>
                  obtain ⟨q, hq, hAq, hsc⟩ := ihb K _ s lb env w hrb hf (learn_sound hA hc) (by simpa using hw)
                  exact ⟨q, List.mem_append_right _ hq, hAq, hsc⟩
              obtain ⟨q, hq, hAq, hsc⟩ := hq
              cases hsm : same (la ++ lb) with
              | some s1 =>
                rw [hsm] at h
                have e := same_sound hsm q hq
                exact fin (A, s1) hA (by intro base; rw [hsc base, e]) outs h (fun _ hz => hz)
              | none =>
                rw [hsm] at h
                obtain ⟨x, hx, hsub⟩ := bindAll_sound h q hq
                exact fin q hAq hsc x hx hsub
      simp only [Option.bind_some] at ht
      cases hw : (if r then a.render lower env else b.render lower env) with
      | none => rw [hw] at ht; cases ht
      | some w =>
        rw [hw] at ht
        cases hu : k.render lower env with
        | none => rw [hu] at ht; cases ht
        | some u =>
          rw [hu] at ht
          simp only [Option.bind_some, Option.map_some, Option.some.injEq] at ht
          exact key w hw u hu ht.symm
  | loop f body k ihb ihk =>
    intro K A s outs env t h hf hA ht
    simp only [run] at h
    split at h
    · rename_i hK
      obtain ⟨hK, hm⟩ := hK
      simp only [Tm.render] at ht
      cases hv : env.get f with
      | none => rw [hv] at ht; cases ht
      | some v =>
        rw [hv] at ht
        have hok := hf f _ hK v hv
        cases v with
        | str _ => cases ht
        | num _ => cases ht
        | flag _ => cases ht
        | strs l =>
          simp only at ht
          cases hr : run R ((elemField, .value) :: K) body [] s with
          | none => rw [hr] at h; cases h
          | some lb =>
            rw [hr] at h
            simp only [Option.bind_some] at h
            split at h
            · rename_i hall
              have each : ∀ (l : List Text), (∀ x ∈ l, Value R x) → ∀ w,
                  eachOf (fun x => body.render lower ((elemField, .str x) :: env)) l = some w →
                  ∀ base, scan R (s.over base) w = some (s.over base) := by
                intro l
                induction l with
                | nil => intro _ w hw base; cases hw; rfl
                | cons x l ihl =>
                  intro hx w hw base
                  simp only [eachOf] at hw
                  cases hb : body.render lower ((elemField, .str x) :: env) with
                  | none => rw [hb] at hw; cases hw
                  | some u =>
                    rw [hb] at hw
                    simp only [Option.bind_some] at hw
                    cases he : eachOf (fun x => body.render lower ((elemField, .str x) :: env)) l with
                    | none => rw [he] at hw; cases hw
                    | some u2 =>
                      rw [he] at hw
                      cases hw
                      have hfit : Fits R ((elemField, .value) :: K) ((elemField, .str x) :: env) := by
                        intro g kd hg v hv
                        rw [AMap.get_cons] at hg hv
                        by_cases hgf : elemField = g
                        · rw [if_pos hgf] at hg hv
                          cases hg; cases hv
                          intro t ht; cases ht; exact hx x (List.mem_cons_self ..)
                        · rw [if_neg hgf] at hg hv
                          exact hf g kd hg v hv
                      obtain ⟨q, hq, _, hsc⟩ := ihb _ [] s lb _ u hr hfit (by intro p hp; cases hp) hb
                      have e : q.2 = s := by
                        have := List.all_eq_true.mp hall q hq
                        simpa using this
                      rw [scan_append, hsc base, e]
                      exact ihl (fun y hy => hx y (List.mem_cons_of_mem _ hy)) u2 he base
              cases he : eachOf (fun x => body.render lower ((elemField, .str x) :: env)) l with
              | none => rw [he] at ht; cases ht
              | some w =>
                rw [he] at ht
                simp only [Option.bind_some] at ht
                cases hu : k.render lower env with
                | none => rw [hu] at ht; cases ht
                | some u =>
                  rw [hu] at ht
                  cases ht
                  obtain ⟨p, hp, hA', hsc⟩ := ihk K A s outs env u h hf hA hu
                  refine ⟨p, hp, hA', fun base => ?_⟩
                  rw [scan_append, each l hok w he base]; exact hsc base
            · cases h
    · cases h

/-- A template accepted by the checker, from the text to the text, writes well-formed fragments. -/
def accepts (R : Rules) (K : Fields) (A : Known) (tm : Tm) : Bool :=
  match run R K tm A ⟨.text, []⟩ with
  | some outs => outs.all (fun p => p.2 = ⟨.text, []⟩)
  | none => false

theorem accepts_sound {R lower K A tm env t} (hl : LowerOk R lower) (h : accepts R K A tm = true)
    (hf : Fits R K env) (hA : Holds env A) (ht : Tm.render lower tm env = some t) : Markup R t := by
  unfold accepts at h
  cases hr : run R K tm A ⟨.text, []⟩ with
  | none => rw [hr] at h; cases h
  | some outs =>
    rw [hr] at h
    obtain ⟨p, hp, _, hsc⟩ := run_sound hl tm K A _ outs env t hr hf hA ht
    have e : p.2 = ⟨.text, []⟩ := by
      have := List.all_eq_true.mp h p hp
      simpa using this
    rw [markup_iff]
    have := hsc []
    rw [e] at this
    simpa [St.over] using this

end Verif.Html
