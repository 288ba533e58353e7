import Verif.Props.IncludeLine
import Verif.Props.Chosen
import Verif.Props.LevelOffset

/-!
# C72 — Files included in files, to any depth: the lines that a document amounts to
-/
namespace Verif
namespace C72
open Included
open Chosen (keyword directive holds DirectiveOk)
open C71 (given Attributes)
open C50 (read Reads Untouched present NoEol Blanks)
open C01 (Ev stepEv runEvs chunks evStack)
open C05 (rel)

/-! ### Chunks of text and lines -/

/-- The same text; and nothing at all only if there are no lines. -/
structure Same (cs ls : List Text) : Prop where
  nil : cs = [] ↔ ls = []
  text : joinLF cs = joinLF ls

theorem Same.refl (ls : List Text) : Same ls ls := ⟨Iff.rfl, rfl⟩

theorem joinLF_append (a b : List Text) : joinLF (a ++ b) = if a = [] then joinLF b else if b = [] then joinLF a else joinLF a ++ '\n' :: joinLF b := by
  induction a with
  | nil => rfl
  | cons x a ih =>
    rw [if_neg (by simp)]
    cases b with
    | nil => rw [List.append_nil, if_pos rfl]
    | cons y b =>
      rw [if_neg (List.cons_ne_nil y b)] at ih ⊢
      cases a with
      | nil => rfl
      | cons z a =>
        rw [if_neg (by simp)] at ih
        show x ++ '\n' :: joinLF (z :: a ++ y :: b) = (x ++ '\n' :: joinLF (z :: a)) ++ _
        rw [ih, List.append_assoc]
        rfl

theorem Same.append {a b x y : List Text} (h1 : Same a x) (h2 : Same b y) : Same (a ++ b) (x ++ y) where
  nil := by simp only [List.append_eq_nil_iff, h1.nil, h2.nil]
  text := by
    rw [joinLF_append, joinLF_append, h1.text, h2.text]
    simp only [h1.nil, h2.nil]

theorem same_file (ls : List Text) : Same [joinLF ls] (atLeastOne ls) := by
  cases ls with
  | nil => exact ⟨by simp [atLeastOne], rfl⟩
  | cons l ls => exact ⟨by simp [atLeastOne], rfl⟩

theorem same_plain (ls : List Text) : Same [unlines ls] (ls ++ [[]]) := by
  refine ⟨by simp, ?_⟩
  show unlines ls = _
  rw [joinLF_append]
  induction ls with
  | nil => rfl
  | cons l ls ih =>
    rw [if_neg (by simp), if_neg (by simp)]
    show (l ++ ['\n']) ++ unlines ls = joinLF (l :: ls) ++ ['\n']
    rw [ih]
    cases ls with
    | nil => simp [joinLF]
    | cons x xs =>
      rw [if_neg (by simp), if_neg (by simp)]
      show _ = (l ++ '\n' :: joinLF (x :: xs)) ++ ['\n']
      simp [joinLF]

section
variable {σ : Type} {S : Peg.Sem σ} {elem : σ → Option RawElem} {sects within : σ → Bool} {env : Env} {api : AMap Val}

/-- What is written for the lines, and for the tags. -/
def lineSpec : Pick → Option Text
  | .lines _ spec _ => some spec
  | _ => none
def tagSpec : Pick → Option Text
  | .tags _ spec _ => some spec
  | _ => none

/-- The directive. -/
def directiveOf (p : Text) (k : Pick) (o : Option Nat) : Inclusion := ⟨[.lit p], lineSpec k, tagSpec k, o.map (fun n => '+' :: n.repr.toList)⟩

/-- What the rule for inclusions returns (parser.peg:134-144, types.go:3235-3266): the path and the attributes as they are written; and quotes are no letters and no numbers. -/
structure Includes (S : Peg.Sem σ) (elem : σ → Option RawElem) : Prop where
  quote : C50.alnum S '"' = false
  incl : ∀ s p k o g, InclusionOk p k o g → elem (S.act 26 s (inclusion p k o g) []) = some (.incl (directiveOf p k o))

/-! ### Single lines -/

theorem blanks_noEol {g : Text} (h : Blanks g) : NoEol g := by
  intro c hc
  rcases h c hc with rfl | rfl <;> rfl

theorem word_offset : Word "leveloffset".toList := ⟨by decide, by decide⟩

theorem word_number : ∀ n : Nat, n ≤ 9 → Word ('+' :: n.repr.toList)
  | 0, _ | 1, _ | 2, _ | 3, _ | 4, _ | 5, _ | 6, _ | 7, _ | 8, _ | 9, _ => ⟨by decide, by decide⟩
  | n + 10, h => by omega

theorem intercalate_two (a b : Text) : List.intercalate [','] [a, b] = a ++ ',' :: b := by simp

theorem intercalate_one (a : Text) : List.intercalate [','] [a] = a := by simp

theorem value_ok {q : Bool} {spec : Text} (h : Writable q spec) : Value (value q spec) := by
  obtain ⟨h0, h1, h2⟩ := h
  cases q with
  | true => exact .inr ⟨spec, ⟨h0, h1⟩, rfl⟩
  | false =>
    refine .inl ⟨h0, fun c hc hm => ?_⟩
    have := h1 c hc
    have h2 := h2 rfl
    simp only [List.mem_cons, List.not_mem_nil, or_false, not_or] at this hm
    have : c ≠ ',' := by rintro rfl; exact h2 hc
    tauto

theorem value_noEol {q : Bool} {spec : Text} (h : Writable q spec) : ∀ c ∈ value q spec, Grammar.isEol c = false ∧ c ≠ ']' := by
  have key : ∀ c ∈ spec, Grammar.isEol c = false ∧ c ≠ ']' := by
    intro c hc
    have := h.2.1 c hc
    simp only [List.mem_cons, List.not_mem_nil, or_false, not_or] at this
    exact ⟨by simp [Grammar.isEol, this], this.2.1⟩
  cases q with
  | true =>
    intro c hc
    rcases List.mem_cons.mp hc with rfl | hc
    · decide
    · rcases List.mem_append.mp hc with hc | hc
      · exact key c hc
      · rw [List.mem_singleton.mp hc]; decide
  | false => exact key

theorem named_lines : Word "lines".toList := ⟨by decide, by decide⟩
theorem named_tags : Word "tags".toList := ⟨by decide, by decide⟩

/-- The attribute for the wanted lines. -/
theorem pick_cases {p g : Text} {k : Pick} {o : Option Nat} (h : InclusionOk p k o g) : k = .all ∨ ∃ w v, Word w ∧ Value v ∧ k.written = [w ++ '=' :: v] ∧
    (∀ c ∈ w ++ '=' :: v, Grammar.isEol c = false ∧ c ≠ ']') := by
  cases k with
  | all => exact .inl rfl
  | lines q spec rs =>
    have hw := h.lines q spec rs rfl
    refine .inr ⟨"lines".toList, value q spec, named_lines, value_ok hw, rfl, fun c hc => ?_⟩
    rcases List.mem_append.mp hc with hc | hc
    · exact (show ∀ c ∈ "lines".toList, Grammar.isEol c = false ∧ c ≠ ']' by decide) c hc
    · rcases List.mem_cons.mp hc with rfl | hc
      · decide
      · exact value_noEol hw c hc
  | tags q spec rs =>
    have hw := h.tags q spec rs rfl
    refine .inr ⟨"tags".toList, value q spec, named_tags, value_ok hw, rfl, fun c hc => ?_⟩
    rcases List.mem_append.mp hc with hc | hc
    · exact (show ∀ c ∈ "tags".toList, Grammar.isEol c = false ∧ c ≠ ']' by decide) c hc
    · rcases List.mem_cons.mp hc with rfl | hc
      · decide
      · exact value_noEol hw c hc

theorem brackets {p g : Text} {k : Pick} {o : Option Nat} (h : InclusionOk p k o g) : InBrackets (option k o) := by
  have ho : ∀ n, o = some n → InBrackets ("leveloffset=+".toList ++ n.repr.toList) := fun n hn => .named word_offset (.inl (word_number n (h.offset n hn)))
  unfold option
  rcases pick_cases h with rfl | ⟨w, v, hw, hv, e, _⟩
  · cases o with
    | none => exact .none
    | some n =>
      show InBrackets (List.intercalate [','] ["leveloffset=+".toList ++ n.repr.toList])
      rw [intercalate_one]
      exact ho n rfl
  · rw [e]
    cases o with
    | none =>
      show InBrackets (List.intercalate [','] [w ++ '=' :: v])
      rw [intercalate_one]
      exact .named hw hv
    | some n =>
      show InBrackets (List.intercalate [','] [w ++ '=' :: v, "leveloffset=+".toList ++ n.repr.toList])
      rw [intercalate_two, List.append_assoc]
      exact .more hw hv (ho n rfl) (by simp)

theorem offset_noEol : ∀ n : Nat, n ≤ 9 → ∀ c ∈ "leveloffset=+".toList ++ n.repr.toList, Grammar.isEol c = false ∧ c ≠ ']' := by
  intro n hn
  have : n = 0 ∨ n = 1 ∨ n = 2 ∨ n = 3 ∨ n = 4 ∨ n = 5 ∨ n = 6 ∨ n = 7 ∨ n = 8 ∨ n = 9 := by omega
  rcases this with rfl | rfl | rfl | rfl | rfl | rfl | rfl | rfl | rfl | rfl <;> decide

theorem option_noEol {p g : Text} {k : Pick} {o : Option Nat} (h : InclusionOk p k o g) : ∀ c ∈ option k o, Grammar.isEol c = false ∧ c ≠ ']' := by
  unfold option
  rcases pick_cases h with rfl | ⟨w, v, hw, hv, e, hc⟩
  · cases o with
    | none => exact fun _ h => nomatch h
    | some n =>
      show ∀ c ∈ List.intercalate [','] ["leveloffset=+".toList ++ n.repr.toList], _
      rw [intercalate_one]
      exact offset_noEol n (h.offset n rfl)
  · rw [e]
    cases o with
    | none =>
      show ∀ c ∈ List.intercalate [','] [w ++ '=' :: v], _
      rw [intercalate_one]
      exact hc
    | some n =>
      show ∀ c ∈ List.intercalate [','] [w ++ '=' :: v, "leveloffset=+".toList ++ n.repr.toList], _
      rw [intercalate_two]
      intro c hm
      rcases List.mem_append.mp hm with hm | hm
      · exact hc c hm
      · rcases List.mem_cons.mp hm with rfl | hm
        · decide
        · exact offset_noEol n (h.offset n rfl) c hm

theorem inclusion_noEol {p g : Text} {k : Pick} {o : Option Nat} (h : InclusionOk p k o g) : NoEol (inclusion p k o g) := by
  have hp : NoEol p := by
    intro c hc
    have := h.path.2 c hc
    simp only [List.mem_cons, List.not_mem_nil, or_false, not_or] at this
    simp [Grammar.isEol, this.1, this.2.1]
  have ho : NoEol (option k o) := fun c hc => (option_noEol h c hc).1
  have hg := blanks_noEol h.gap
  intro c hc
  unfold inclusion at hc
  simp only [List.mem_append, List.mem_singleton] at hc
  rcases hc with ((((hc | hc) | hc) | hc) | hc) | hc
  · have : NoEol "include::".toList := by unfold NoEol; decide
    exact this c hc
  · exact hp c hc
  · subst hc; rfl
  · exact ho c hc
  · subst hc; rfl
  · exact hg c hc

/-- The line that includes a file. -/
theorem step_inclusion (hE : Reads env S elem sects within) (hI : Includes S elem) (inc : Verif.Ctx → Inclusion → Except Verif.Err (Text × List Offset)) (ctx : Verif.Ctx) (tr : Tracker)
    {p g : Text} {k : Pick} {o : Option Nat} (h : InclusionOk p k o g) {t : Text} {os : List Offset} (hi : inc ctx (directiveOf p k o) = .ok (t, os)) :
    stepEv env inc ctx tr (inclusion p k o g) = .ok (.emit t, { ctx with offsets := os }, tr) := by
  obtain ⟨st, s, r, _, _, hr, hcls⟩ := hE.classify ctx.sectEnabled ctx.within _ (inclusion_noEol h)
  have hy := yields_inclusion (S := S) hI.quote h.path.1 h.path.2 (brackets h) h.gap
  obtain ⟨s', e⟩ := inclusion_read hE.code (l := inclusion p k o g) rfl hy hr
  unfold C01.stepEv
  rw [hcls, e, hI.incl _ _ _ _ _ h]
  dsimp only
  rw [hi]

/-- A line that is nothing else is left alone. -/
theorem step_quiet (hE : Reads env S elem sects within) (inc : Verif.Ctx → Inclusion → Except Verif.Err (Text × List Offset)) (ctx : Verif.Ctx) (tr : Tracker)
    {l : Text} (hu : Untouched l) (hc : l.head? ≠ some ':') (hd : ∀ kind n, ¬ C50.Delimits kind n l) (ht : ctx.sectEnabled = true → ctx.within = false → ∀ n, ¬ C50.Titles n l) :
    stepEv env inc ctx tr l = .ok (.emit l, ctx, tr) := by
  obtain ⟨st, s, r, hse, hwb, hr, hcls⟩ := hE.classify ctx.sectEnabled ctx.within l hu.line
  unfold C01.stepEv
  rw [hcls]
  cases he : read elem r with
  | none => rfl
  | some e =>
    exfalso
    cases e with
    | decl n v raw =>
      obtain ⟨_, m, hd, _⟩ := C50.declaration_only hE.code hu.line hr he
      exact (C71.not_colon hc m).1 hd
    | reset n raw =>
      obtain ⟨_, m, hm, _⟩ := (C50.reset_iff hE.code hu.line hr n raw).mp he
      exact (C71.not_colon hc m).2.2 hm
    | incl i => exact hu.free _ (by decide) (C50.inclusion_only hE.code hu.line hr he)
    | sect n raw =>
      obtain ⟨_, h1, h2, k, _, hk⟩ := (C50.title_iff hE.code hu.line hr n raw).mp he
      exact ht (hse ▸ h1) (hwb ▸ h2) k hk
    | delim kind n raw => exact hd _ _ ((C50.delimiter_iff hE.code hu.line hr kind n raw).mp he).2
    | endif =>
      obtain ⟨n, c, hd⟩ := (C50.endif_iff hE.code hu.line hr).mp he
      exact hu.free _ (by decide) hd.start
    | cond c =>
      cases c with
      | ifdef n c =>
        obtain ⟨nm, ct, _, hd, _⟩ := (C50.ifdef_iff hE.code hu.line hr n c).mp he
        exact hu.free _ (by decide) hd.start
      | ifndef n c =>
        obtain ⟨nm, ct, _, hd, _⟩ := (C50.ifndef_iff hE.code hu.line hr n c).mp he
        exact hu.free _ (by decide) hd.start
      | ifeval a op b =>
        have h : C50.Form (C50.alnum S) (sects s) (within s) l (.cond (.ifeval a op b)) :=
          (C50.read_iff hE.code hu.line hr (.cond (.ifeval a op b)) (by intro _ _ _ e; cases e) (by intro _ e; cases e)).mp he
        exact hu.free _ (by decide) (C50.pIfeval_start (l := l) h).1

theorem not_delimits {l : Text} (h : ∀ f ∈ fences, ¬ f <+: l) (kind : String) (n : Nat) : ¬ C50.Delimits kind n l := by
  have no : ∀ {f u : Text}, f ∈ fences → l = f ++ u → False := fun hf hu => h _ hf ⟨_, hu.symm⟩
  rintro (⟨c, k, b, hm, hk, _, e2⟩ | ⟨_, _, lang, b, _, _, _, e2⟩)
  · have hr : l = List.replicate k c ++ (List.replicate (n - k) c ++ b) := by
      rw [← List.append_assoc, List.replicate_append_replicate, show k + (n - k) = n by omega, e2]
    simp only [C50.table, List.mem_cons, List.not_mem_nil, or_false, Prod.mk.injEq] at hm
    rcases hm with ⟨rfl, rfl, rfl⟩ | ⟨rfl, rfl, rfl⟩ | ⟨rfl, rfl, rfl⟩ | ⟨rfl, rfl, rfl⟩ | ⟨rfl, rfl, rfl⟩ | ⟨rfl, rfl, rfl⟩ | ⟨rfl, rfl, rfl⟩ | ⟨rfl, rfl, rfl⟩
    · exact no (f := "////".toList) (by decide) hr
    · exact no (f := "====".toList) (by decide) hr
    · exact no (f := "```".toList) (by decide) hr
    · exact no (f := "----".toList) (by decide) hr
    · exact no (f := "....".toList) (by decide) hr
    · exact no (f := "++++".toList) (by decide) hr
    · exact no (f := "____".toList) (by decide) hr
    · exact no (f := "****".toList) (by decide) hr
  · rw [List.append_assoc] at e2
    exact no (f := "```".toList) (by decide) e2

theorem titles_title {n : Nat} {t : Text} (hn : n ≤ 5) (ht : ∃ c r, t = c :: r ∧ c ≠ ' ' ∧ c ≠ '\t') : C50.Titles n (title n t) := by
  obtain ⟨c, r, rfl, h1, h2⟩ := ht
  refine ⟨hn, [' '], c, r, by simp, by intro x hx; exact .inl (List.mem_singleton.mp hx), ?_, by unfold title; simp⟩
  intro h
  rcases h c (by simp) with h | h
  · exact h1 h
  · exact h2 h

theorem title_head (n : Nat) (t : Text) : (title n t).head? = some '=' := rfl

theorem title_untouched {n : Nat} {t : Text} (ht : NoEol t) (hs : utf8Len (title n t) ≤ 65535) : Untouched (title n t) := by
  refine ⟨?_, hs, ?_⟩
  · intro c hc
    unfold title at hc
    rcases List.mem_append.mp hc with hc | hc
    · rw [List.eq_of_mem_replicate hc]; rfl
    · rcases List.mem_cons.mp hc with rfl | hc
      · rfl
      · exact ht c hc
  · intro k hk ⟨u, hu⟩
    have h1 := congrArg List.head? hu
    rw [title_head] at h1
    simp only [List.mem_cons, List.not_mem_nil, or_false] at hk
    rcases hk with rfl | rfl | rfl | rfl | rfl <;> (replace h1 : some _ = some '=' := h1; exact absurd (Option.some.inj h1) (by decide))

theorem feasible : ∀ (os : List Int) (l : Int), 0 ≤ l → (∀ o ∈ os, 0 ≤ o) → C05.Feasible l os
  | [], l, h, _ => by unfold C05.Feasible; omega
  | o :: os, l, h, ho => by
    have h1 := ho o (by simp)
    exact ⟨by omega, feasible os (l + o) (by omega) (fun x hx => ho x (by simp [hx]))⟩

/-- The level offsets: relative ones, `shift` in all; none in the file that is not included. -/
structure Shifts (shift : Nat) (ctx : Verif.Ctx) : Prop where
  offsets : ∃ os : List Int, (∀ o ∈ os, 0 ≤ o) ∧ os.sum = shift ∧ ctx.offsets = os.map rel
  root : ctx.sectEnabled = false → shift = 0

theorem heading_title (n : Nat) (t : Text) : C05.heading n t = title n t := by
  unfold C05.heading title
  have : ((n : Int) + 1).toNat = n + 1 := by omega
  rw [this]

theorem step_title (hE : Reads env S elem sects within) (inc : Verif.Ctx → Inclusion → Except Verif.Err (Text × List Offset)) {ctx : Verif.Ctx} (tr : Tracker)
    {shift n : Nat} {t : Text} (hs : Shifts shift ctx) (hw : ctx.within = false) (hn : n ≤ 5) (ht : ∃ c r, t = c :: r ∧ c ≠ ' ' ∧ c ≠ '\t') (hl : NoEol t)
    (hu : utf8Len (title n t) ≤ 65535) : stepEv env inc ctx tr (title n t) = .ok (.emit (title (n + shift) t), ctx, tr) := by
  have hU := title_untouched hl hu
  have hT := titles_title hn ht
  by_cases hse : ctx.sectEnabled = true
  · obtain ⟨st, s, r, h1, h2, hr, hcls⟩ := hE.classify ctx.sectEnabled ctx.within _ hU.line
    obtain ⟨os, ho, hsum, he⟩ := hs.offsets
    unfold C01.stepEv
    rw [hcls, (C50.title_iff hE.code hU.line hr n (title n t)).mpr ⟨rfl, h1.trans hse, h2.trans hw, n, rfl, hT⟩]
    dsimp only
    rw [he, ← heading_title, C05.applyOffsets_rel os n t (feasible os n (by omega) ho), hsum]
    dsimp only
    rw [← he, ← Int.natCast_add, heading_title]
  · have h0 := hs.root (by simpa using hse)
    subst h0
    refine step_quiet hE inc ctx tr hU (by rw [title_head]; decide) (fun kind k hd => ?_) (fun h => absurd h hse)
    have := hT.not_delim
    rw [C50.delimOf_iff.mpr ⟨kind, k, hd, rfl⟩] at this
    cases this

theorem delimiter_noEol {c : Char} {k m : Nat} {kind : String} {g : Text} (hm : (c, m, kind) ∈ C50.table) (hg : Blanks g) : NoEol (delimiter c k g) := by
  intro x hx
  rcases List.mem_append.mp hx with hx | hx
  · rw [List.eq_of_mem_replicate hx]
    simp only [C50.table, List.mem_cons, List.not_mem_nil, or_false, Prod.mk.injEq] at hm
    rcases hm with ⟨rfl, rfl, rfl⟩ | ⟨rfl, rfl, rfl⟩ | ⟨rfl, rfl, rfl⟩ | ⟨rfl, rfl, rfl⟩ | ⟨rfl, rfl, rfl⟩ | ⟨rfl, rfl, rfl⟩ | ⟨rfl, rfl, rfl⟩ | ⟨rfl, rfl, rfl⟩ <;> rfl
  · exact blanks_noEol hg x hx

theorem step_delimiter (hE : Reads env S elem sects within) (inc : Verif.Ctx → Inclusion → Except Verif.Err (Text × List Offset)) (ctx : Verif.Ctx) (tr : Tracker)
    {c : Char} {k m : Nat} {kind : String} {g : Text} (hm : (c, m, kind) ∈ C50.table) (hk : m ≤ k) (hg : Blanks g) :
    stepEv env inc ctx tr (delimiter c k g) = .ok (.emit (delimiter c k g), { ctx with within := !(track tr kind k).isEmpty }, track tr kind k) := by
  have hl : NoEol (delimiter c k g) := delimiter_noEol hm hg
  obtain ⟨st, s, r, _, _, hr, hcls⟩ := hE.classify ctx.sectEnabled ctx.within _ hl
  unfold C01.stepEv
  rw [hcls, (C50.delimiter_iff hE.code hl hr kind k (delimiter c k g)).mpr ⟨rfl, .inl ⟨c, m, g, hm, hk, hg, rfl⟩⟩]

theorem step_declare (hE : Reads env S elem sects within) (inc : Verif.Ctx → Inclusion → Except Verif.Err (Text × List Offset)) {ctx : Verif.Ctx} (tr : Tracker) {set : List Text}
    (hk : Attributes api set ctx) {n l : Text} (hl : NoEol l) (hd : C50.SimpleDeclaration (C50.alnum S) n l) :
    ∃ a, stepEv env inc ctx tr l = .ok (.emit l, { ctx with attrs := a }, tr) ∧ Attributes api (n :: set) { ctx with attrs := a } := by
  obtain ⟨st, s, r, _, _, hr, hcls⟩ := hE.classify ctx.sectEnabled ctx.within _ hl
  obtain ⟨v, hv⟩ := C50.simple_declares hE.code hE.progress hE.special hl hr hd
  refine ⟨ctx.attrs.set (String.ofList n) v, ?_, hk.imm, AMap.WF_set hk.wf _ _, fun m => ?_⟩
  · unfold C01.stepEv
    rw [hcls, hv]
  · unfold present CtxAttrs.set
    dsimp only
    rw [AMap.get_set, List.mem_cons, ← hk.set m]
    by_cases h : String.ofList m = String.ofList n
    · rw [if_pos h]
      exact ⟨fun _ => .inl (C50.ofList_inj h), fun _ => rfl⟩
    · rw [if_neg h]
      constructor
      · exact .inr
      · rintro (rfl | h')
        · exact absurd rfl h
        · exact h'

theorem step_reset (hE : Reads env S elem sects within) (inc : Verif.Ctx → Inclusion → Except Verif.Err (Text × List Offset)) {ctx : Verif.Ctx} (tr : Tracker) {set : List Text}
    (hk : Attributes api set ctx) {n l : Text} (hl : NoEol l) (hd : C50.Resets (C50.alnum S) n l) :
    ∃ a, stepEv env inc ctx tr l = .ok (.emit l, { ctx with attrs := a }, tr) ∧ Attributes api (set.filter (· ≠ n)) { ctx with attrs := a } := by
  obtain ⟨st, s, r, _, _, hr, hcls⟩ := hE.classify ctx.sectEnabled ctx.within _ hl
  refine ⟨ctx.attrs.unset (String.ofList n), ?_, hk.imm, AMap.WF_del hk.wf _, fun m => ?_⟩
  · unfold C01.stepEv
    rw [hcls, (C50.reset_iff hE.code hl hr (String.ofList n) l).mpr ⟨rfl, n, hd, rfl⟩]
  · unfold present CtxAttrs.unset
    dsimp only
    rw [AMap.get_del, List.mem_filter, ← hk.set m, decide_eq_true_eq]
    by_cases h : String.ofList m = String.ofList n
    · rw [if_pos h]
      exact ⟨fun h => (nomatch h), fun h' => absurd (C50.ofList_inj h) h'.2⟩
    · rw [if_neg h]
      exact ⟨fun h' => ⟨h', fun e => h (by rw [e])⟩, fun h' => h'.1⟩

/-! ### Files -/

theorem unlines_fit {ls : List Text} (h : ∀ l ∈ ls, NoEol l ∧ utf8Len l ≤ 65535) : scanErr (unlines ls) = false := by
  unfold scanErr
  rw [physLines_unlines ls (fun l hl hn => by have := (h l hl).1 _ hn; cases this)]
  rw [List.any_eq_false]
  intro l hl
  simpa using (C02.fits_iff l).2 (h l hl).2

theorem no_macro (hb : env.alnum '[' = false) (l : Text) : (!hasTag env.alnum l) = @decide (¬ C03.HasMacro env.alnum l) (Classical.propDecidable _) := by
  rw [Bool.eq_iff_iff, @decide_eq_true_iff _ (Classical.propDecidable _), Bool.not_eq_true', ← C03.hasTag_iff env.alnum hb l, Bool.not_eq_true]

/-- The tags. -/
theorem read_tags {sel : List TagRange} (hb : env.alnum '[' = false) (hsel : ∀ t ∈ sel, t.name = ['*', '*'] → t.included = true) {ls : List Text}
    (h1 : C04.StopsStarted (C04.events env.alnum ls)) (h2 : ¬ C04.Missing env.alnum sel ls) (q : Bool) (spec : Text) :
    readWithinTags env.alnum (fun _ _ c => c) sel ls = .ok (picked env.alnum (.tags q spec sel) ls) := by
  obtain ⟨keep, cur', e1, hm, e3⟩ := (C04.loop_spec env.alnum sel hsel ls [] 0 [] C04.mapOK_nil (by intro pre n post e; simp at e)).1 h1
  obtain ⟨out, e, _⟩ := (C04.tags_selected env.alnum (fun _ _ c => c) (fun _ _ c => List.Perm.refl c) sel hsel ls).2.2 h1 h2
  have e' : readWithinTags env.alnum (fun _ _ c => c) sel ls = .ok (keep.map Prod.fst) := by
    rw [e]
    unfold readWithinTags at e
    rw [e1] at e
    dsimp only at e
    split at e
    · exact e.symm
    · cases e
  rw [e', e3]
  unfold picked
  simp only [List.nil_append]
  congr 3
  funext p
  rw [no_macro hb, Bool.and_comm, Bool.eq_iff_iff]
  simp

/-- What is read of a file. -/
theorem read_picked (hc : C39.ClassOK env.alnum) {file : Text} {k : Pick} {all ls : List Text} (h : Contains env file k all ls) (p : Text) (o : Option Nat) :
    selectLines env (directiveOf p k o) (unlines all) = .ok ls := by
  have hb : env.alnum '[' = false := hc.2.2.2.2
  rw [← h.wanted]
  have hk := h.pick
  have hs := C50.untouched_scan h.lines
  cases k with
  | all =>
    show Except.ok (readAll env.alnum (scanLines (unlines all))) = _
    rw [hs]
    unfold readAll picked
    congr 2
    funext l
    rw [no_macro hb, Bool.eq_iff_iff]
    simp
  | lines q spec rs =>
    have e := (C39.include_lines env (directiveOf p (.lines q spec rs) o) spec rfl (unlines all)).1 rs hk
    rw [e, hs]
    unfold picked
    congr 3
    funext x
    rw [no_macro hb, Bool.and_comm, Bool.eq_iff_iff]
    simp
  | tags q spec sel =>
    obtain ⟨h1, h2, h3, h4⟩ := hk
    show (match pTagRanges env.alnum spec with
      | none => Except.error Verif.Err.error
      | some ts => readWithinTags env.alnum (fun _ _ c => c) ts (scanLines (unlines all))) = _
    rw [(C39.tag_ranges_iff env.alnum hc spec sel).2 h1]
    dsimp only
    rw [hs, read_tags hb h2 h3 h4 q spec]

theorem picked_mem {alnum : Char → Bool} {k : Pick} {all : List Text} {l : Text} (h : l ∈ picked alnum k all) : l ∈ all := by
  cases k with
  | all => exact (List.mem_filter.mp h).1
  | lines q spec rs =>
    obtain ⟨x, hx, rfl⟩ := List.mem_map.mp h
    exact List.fst_mem_of_mem_zipIdx (List.mem_filter.mp hx).1
  | tags q spec sel =>
    obtain ⟨⟨a, b⟩, hx, rfl⟩ := List.mem_map.mp h
    exact (List.of_mem_zip (List.mem_filter.mp hx).1).1

theorem contains_fits {file : Text} {k : Pick} {all ls : List Text} (h : Contains env file k all ls) : ∀ l ∈ ls, NoEol l ∧ utf8Len l ≤ 65535 := by
  intro l hl
  rw [← h.wanted] at hl
  exact h.lines l (picked_mem hl)

/-- The change of the level offsets. -/
def change (o : Option Nat) : OffsetChange := match o with
  | none => .keep
  | some n => .relative n

theorem offset_change {o : Option Nat} (h : ∀ n, o = some n → n ≤ 9) (p : Text) (k : Pick) :
    offsetChange (directiveOf p k o) = .ok (change o) := by
  cases o with
  | none => rfl
  | some n =>
    have hn := h n rfl
    have : n = 0 ∨ n = 1 ∨ n = 2 ∨ n = 3 ∨ n = 4 ∨ n = 5 ∨ n = 6 ∨ n = 7 ∨ n = 8 ∨ n = 9 := by omega
    rcases this with rfl | rfl | rfl | rfl | rfl | rfl | rfl | rfl | rfl | rfl <;> rfl

theorem child_shifts {ctx : Verif.Ctx} {shift : Nat} (h : Shifts shift ctx) (file : Text) (o : Option Nat) :
    Shifts (shift + o.getD 0) { ctx with filename := file, offsets := childOffsets ctx.offsets (change o), sectEnabled := true } := by
  obtain ⟨os, h1, h2, h3⟩ := h.offsets
  refine ⟨?_, fun h => nomatch h⟩
  cases o with
  | none => exact ⟨os, h1, h2, h3⟩
  | some n =>
    refine ⟨os ++ [(n : Int)], ?_, ?_, ?_⟩
    · intro x hx
      rcases List.mem_append.mp hx with hx | hx
      · exact h1 x hx
      · rw [List.mem_singleton.mp hx]; omega
    · rw [List.sum_append, h2]; simp
    · show ctx.offsets ++ [⟨false, (n : Int)⟩] = _
      rw [h3, List.map_append]; rfl

theorem parent_offsets (os : List Offset) (o : Option Nat) : parentOffsets os (change o) (childOffsets os (change o)) = os := by
  cases o with
  | none => rfl
  | some n => exact List.take_left

/-- An AsciiDoc file is preprocessed. -/
theorem include_file (hc : C39.ClassOK env.alnum) {ctx : Verif.Ctx} {p : Text} {k : Pick} {o : Option Nat} (ho : ∀ n, o = some n → n ≤ 9) {all ls : List Text}
    (hf : Contains env (env.resolve ctx.filename p) k all ls) (ha : isAsciidoc (env.resolve ctx.filename p) = true)
    {recCall : Verif.Ctx → Text → Except Verif.Err (Text × List Offset)} {t : Text}
    (hr : recCall { ctx with filename := env.resolve ctx.filename p, offsets := childOffsets ctx.offsets (change o), sectEnabled := true } (unlines ls) =
      .ok (t, childOffsets ctx.offsets (change o))) :
    includeFile env recCall ctx (directiveOf p k o) = .ok (t, ctx.offsets) := by
  have hp : pathText env ctx.attrs (directiveOf p k o).path = p := by simp [pathText, directiveOf]
  unfold includeFile
  dsimp only
  rw [hp, hf.content]
  dsimp only
  rw [read_picked hc hf]
  dsimp only
  rw [unlines_fit hf.lines, if_neg (by decide), offset_change ho]
  dsimp only
  rw [ha, if_pos rfl, hr]
  dsimp only
  rw [parent_offsets]

/-- Another file is not. -/
theorem include_plain (hc : C39.ClassOK env.alnum) {ctx : Verif.Ctx} {p : Text} {k : Pick} {all ls : List Text}
    (hf : Contains env (env.resolve ctx.filename p) k all ls) (ha : isAsciidoc (env.resolve ctx.filename p) = false)
    (recCall : Verif.Ctx → Text → Except Verif.Err (Text × List Offset)) :
    includeFile env recCall ctx (directiveOf p k none) = .ok (unlines ls, ctx.offsets) := by
  have hp : pathText env ctx.attrs (directiveOf p k none).path = p := by simp [pathText, directiveOf]
  unfold includeFile
  dsimp only
  rw [hp, hf.content]
  dsimp only
  rw [read_picked hc hf]
  dsimp only
  rw [unlines_fit hf.lines, if_neg (by decide), show offsetChange (directiveOf p k none) = .ok .keep from rfl]
  dsimp only
  rw [ha, if_neg (by decide)]

/-! ### Documents -/

/-- What the lines amount to. -/
structure Amounts (env : Env) (inc : Verif.Ctx → Inclusion → Except Verif.Err (Text × List Offset)) (api : AMap Val) (ctx : Verif.Ctx) (tr : Tracker) (ls : List Text)
    (set' : List Text) (out : List Text) (evs : List Ev) (attrs' : CtxAttrs) : Prop where
  runs : runEvs env inc ctx tr ls = .ok (evs, { ctx with attrs := attrs' }, tr)
  knows : Attributes api set' { ctx with attrs := attrs' }
  stack : ∀ s, evs.foldl evStack s = s
  chunks : ∃ cs, Same cs out ∧ ∀ s, chunks s evs = if condsEval s then cs else []

theorem amounts_append {inc : Verif.Ctx → Inclusion → Except Verif.Err (Text × List Offset)} {ctx : Verif.Ctx} {a1 a2 : CtxAttrs} {tr : Tracker} {a b : List Text} {set1 set2 : List Text}
    {x y : List Text} {e1 e2 : List Ev} (h1 : Amounts env inc api ctx tr a set1 x e1 a1) (h2 : Amounts env inc api { ctx with attrs := a1 } tr b set2 y e2 a2) :
    Amounts env inc api ctx tr (a ++ b) set2 (x ++ y) (e1 ++ e2) a2 where
  runs := by rw [C50.runEvs_append _ _ _ _ _ h1.runs, h2.runs]
  knows := h2.knows
  stack s := by rw [List.foldl_append, h1.stack, h2.stack]
  chunks := by
    obtain ⟨c1, s1, k1⟩ := h1.chunks
    obtain ⟨c2, s2, k2⟩ := h2.chunks
    refine ⟨c1 ++ c2, s1.append s2, fun s => ?_⟩
    rw [C01.chunks_append, h1.stack, k1, k2]
    cases condsEval s <;> rfl

/-- A line by which something is written. -/
theorem amounts_emit {inc : Verif.Ctx → Inclusion → Except Verif.Err (Text × List Offset)} {ctx : Verif.Ctx} {tr : Tracker} {l t : Text} {set' out : List Text} {a : CtxAttrs}
    (h : stepEv env inc ctx tr l = .ok (.emit t, { ctx with attrs := a }, tr)) (hk : Attributes api set' { ctx with attrs := a }) (hs : Same [t] out) :
    Amounts env inc api ctx tr [l] set' out [.emit t] a where
  runs := by unfold C01.runEvs; rw [h]; rfl
  knows := hk
  stack _ := rfl
  chunks := ⟨[t], hs, fun _ => rfl⟩

/-- The state in which a part is read. -/
structure Reading (api : AMap Val) (name : Text) (inside : Bool) (set : List Text) (shift : Nat) (ctx : Verif.Ctx) (tr : Tracker) : Prop where
  attrs : Attributes api set ctx
  file : ctx.filename = name
  within : ctx.within = inside
  tracker : inside = false → tr = []
  shifts : Shifts shift ctx

theorem Reading.next {name : Text} {inside : Bool} {set set' : List Text} {shift : Nat} {ctx : Verif.Ctx} {tr : Tracker} {a : CtxAttrs} (h : Reading api name inside set shift ctx tr)
    (hk : Attributes api set' { ctx with attrs := a }) : Reading api name inside set' shift { ctx with attrs := a } tr :=
  ⟨hk, h.file, h.within, h.tracker, h.shifts.offsets, h.shifts.root⟩

mutual
theorem part_amounts (hE : Reads env S elem sects within) (hI : Includes S elem) (hb : C39.ClassOK env.alnum) (hapi : AMap.WF api) :
    ∀ (p : Part) (name : Text) (inside : Bool), p.Ok env (C50.alnum S) name inside → ∀ (n : Nat), p.depth ≤ n → ∀ (set : List Text) (shift : Nat) (ctx : Verif.Ctx) (tr : Tracker),
    Reading api name inside set shift ctx tr →
    ∃ evs a, Amounts env (includeFile env (preprocess env n)) api ctx tr p.written (p.after set) (p.lines (given api) set shift) evs a
  | .line l, name, inside, h, n, _, set, shift, ctx, tr, hk => by
    refine ⟨_, _, amounts_emit (a := ctx.attrs) (step_quiet hE _ ctx tr h.untouched h.colon (not_delimits h.fence) ?_) hk.attrs (Same.refl _)⟩
    rintro _ hw k ⟨_, b, c, t, _, _, _, e⟩
    exact h.equals (hk.within.symm.trans hw) (by rw [e]; rfl)
  | .heading k t, name, inside, h, n, _, set, shift, ctx, tr, hk => by
    obtain ⟨hi, hk5, ht, hl, hu⟩ := h
    exact ⟨_, _, amounts_emit (a := ctx.attrs) (step_title hE _ tr hk.shifts (hk.within.trans hi) hk5 ht hl hu) hk.attrs (Same.refl _)⟩
  | .declare m l, name, inside, h, n, _, set, shift, ctx, tr, hk => by
    obtain ⟨a, e, ha⟩ := step_declare hE (includeFile env (preprocess env n)) tr hk.attrs h.1.line h.2
    exact ⟨_, a, amounts_emit e ha (Same.refl _)⟩
  | .reset m l, name, inside, h, n, _, set, shift, ctx, tr, hk => by
    obtain ⟨a, e, ha⟩ := step_reset hE (includeFile env (preprocess env n)) tr hk.attrs h.1.line h.2
    exact ⟨_, a, amounts_emit e ha (Same.refl _)⟩
  | .when p m g ps a g', name, inside, h, n, hn, set, shift, ctx, tr, hk => by
    obtain ⟨hm, hd, hps, he⟩ := h
    obtain ⟨evs, at', ih⟩ := parts_amount hE hI hb hapi ps name inside hps n hn set shift ctx tr hk
    obtain ⟨cs, hs, hc⟩ := ih.chunks
    refine ⟨.opn (holds (given api) set p m) :: (evs ++ [.cls]), at', ⟨?_, ih.knows, fun s => ?_, ?_⟩⟩
    · show runEvs env _ ctx tr (directive (keyword p) m [] g :: (written ps ++ [directive "endif::".toList a [] g'])) = _
      unfold C01.runEvs
      rw [C71.step_condition hE _ tr hapi hk.attrs hm hd, if_pos rfl]
      dsimp only
      rw [C50.runEvs_append _ _ _ _ _ ih.runs]
      unfold C01.runEvs
      rw [C71.step_end hE _ _ tr he]
      rfl
    · show (evs ++ [Ev.cls]).foldl evStack (s ++ [_]) = s
      rw [List.foldl_append, ih.stack]
      exact List.dropLast_concat
    · refine ⟨if holds (given api) set p m then cs else [], ?_, fun s => ?_⟩
      · show Same _ (if holds (given api) set p m = true then lines (given api) set shift ps else [])
        cases holds (given api) set p m
        · exact Same.refl _
        · exact hs
      · show C01.chunks (s ++ [_]) (evs ++ [Ev.cls]) = _
        rw [C01.chunks_append, hc, C71.eval_snoc]
        show _ ++ [] = _
        rw [List.append_nil]
        cases condsEval s <;> cases holds (given api) set p m <;> rfl
  | .short p m c g, name, inside, h, n, _, set, shift, ctx, tr, hk => by
    obtain ⟨hm, hc, hd⟩ := h
    have hrun : runEvs env (includeFile env (preprocess env n)) ctx tr [directive (keyword p) m c g] = .ok ([if holds (given api) set p m then .emit c else .skip], ctx, tr) := by
      unfold C01.runEvs
      rw [C71.step_condition hE _ tr hapi hk.attrs hm hd, if_neg hc]
      rfl
    refine ⟨_, ctx.attrs, ⟨hrun, hk.attrs, fun s => ?_, if holds (given api) set p m = true then [c] else [], Same.refl _, fun s => ?_⟩⟩
    · cases holds (given api) set p m <;> rfl
    · cases holds (given api) set p m with
      | true => rfl
      | false => cases condsEval s <;> rfl
  | .fence c k g ps g', name, inside, h, n, hn, set, shift, ctx, tr, hk => by
    obtain ⟨hi, ⟨m, kind, hm, hmk⟩, hg, hg', _, _, hps⟩ := h
    have htr := hk.tracker hi
    subst htr
    have hR : Reading api name true set shift { ctx with within := true } [(kind, k)] := ⟨⟨hk.attrs.imm, hk.attrs.wf, hk.attrs.set⟩, hk.file, rfl, fun h => (nomatch h), hk.shifts.offsets, hk.shifts.root⟩
    obtain ⟨evs, at', ih⟩ := parts_amount hE hI hb hapi ps name true hps n hn set shift _ _ hR
    have h1 := step_delimiter hE (includeFile env (preprocess env n)) ctx [] hm hmk hg
    have e1 : track [] kind k = [(kind, k)] := rfl
    have h2 := step_delimiter hE (includeFile env (preprocess env n)) { ctx with within := true, attrs := at' } [(kind, k)] hm hmk hg'
    have e2 : track [(kind, k)] kind k = [] := by simp [track]
    rw [e1] at h1
    rw [e2] at h2
    have hw : ctx.within = false := hk.within.trans hi
    obtain ⟨cs, hs, hc⟩ := ih.chunks
    refine ⟨.emit (delimiter c k g) :: (evs ++ [.emit (delimiter c k g')]), at', ⟨?_, ⟨ih.knows.imm, ih.knows.wf, ih.knows.set⟩, fun s => ?_, ?_⟩⟩
    · show runEvs env _ ctx [] (delimiter c k g :: (written ps ++ [delimiter c k g'])) = _
      unfold C01.runEvs
      rw [h1]
      dsimp only
      have := C50.runEvs_append _ _ [delimiter c k g'] _ _ ih.runs
      rw [show (!([(kind, k)] : Tracker).isEmpty) = true from rfl, this]
      unfold C01.runEvs
      rw [h2]
      show Except.ok _ = _
      rw [hw]
      rfl
    · show (evs ++ [Ev.emit _]).foldl evStack s = s
      rw [List.foldl_append, ih.stack]
      rfl
    · refine ⟨delimiter c k g :: (cs ++ [delimiter c k g']), (Same.refl [delimiter c k g]).append (hs.append (Same.refl _)), fun s => ?_⟩
      show (if condsEval s = true then delimiter c k g :: C01.chunks s (evs ++ [Ev.emit (delimiter c k g')]) else C01.chunks s (evs ++ [Ev.emit (delimiter c k g')])) = _
      rw [C01.chunks_append, hc, ih.stack]
      show (if condsEval s = true then delimiter c k g :: (_ ++ (if condsEval s = true then [delimiter c k g'] else [])) else _ ++ (if condsEval s = true then [delimiter c k g'] else [])) = _
      cases condsEval s <;> rfl
  | .file p k o g all ps, name, inside, h, n, hn, set, shift, ctx, tr, hk => by
    obtain ⟨hp, ha, hf, hps⟩ := h
    obtain ⟨n, rfl⟩ : ∃ m, n = m + 1 := ⟨n - 1, by have : depth ps + 1 ≤ n := hn; omega⟩
    have hd : depth ps ≤ n := by have : depth ps + 1 ≤ n + 1 := hn; omega
    have hR : Reading api (env.resolve name p) inside set (shift + o.getD 0)
        { ctx with filename := env.resolve name p, offsets := childOffsets ctx.offsets (change o), sectEnabled := true } [] :=
      ⟨⟨hk.attrs.imm, hk.attrs.wf, hk.attrs.set⟩, rfl, hk.within, fun _ => rfl, child_shifts hk.shifts _ o⟩
    obtain ⟨evs, at', ih⟩ := parts_amount hE hI hb hapi ps _ inside hps n hd set (shift + o.getD 0) _ [] hR
    obtain ⟨cs, hs, hc⟩ := ih.chunks
    have hpre : preprocess env (n + 1) { ctx with filename := env.resolve name p, offsets := childOffsets ctx.offsets (change o), sectEnabled := true } (unlines (written ps)) =
        .ok (joinLF (lines (given api) set (shift + o.getD 0) ps), childOffsets ctx.offsets (change o)) := by
      rw [C01.preprocess_eq, C50.untouched_scan (contains_fits hf), ih.runs]
      dsimp only
      rw [← C01.chunks_eq_visible, hc, ← hs.text]
      rfl
    rw [← hk.file] at ha hf hpre
    have hinc := include_file hb hp.offset hf ha hpre
    exact ⟨_, ctx.attrs, amounts_emit (step_inclusion hE hI _ ctx tr hp hinc) hk.attrs (same_file _)⟩
  | .plain p k g all ls, name, inside, h, n, _, set, shift, ctx, tr, hk => by
    obtain ⟨hp, ha, hf⟩ := h
    rw [← hk.file] at ha hf
    exact ⟨_, ctx.attrs, amounts_emit (step_inclusion hE hI _ ctx tr hp (include_plain hb hf ha _)) hk.attrs (same_plain _)⟩
theorem parts_amount (hE : Reads env S elem sects within) (hI : Includes S elem) (hb : C39.ClassOK env.alnum) (hapi : AMap.WF api) :
    ∀ (ps : List Part) (name : Text) (inside : Bool), Ok env (C50.alnum S) name inside ps → ∀ (n : Nat), depth ps ≤ n → ∀ (set : List Text) (shift : Nat) (ctx : Verif.Ctx) (tr : Tracker),
    Reading api name inside set shift ctx tr →
    ∃ evs a, Amounts env (includeFile env (preprocess env n)) api ctx tr (written ps) (after set ps) (lines (given api) set shift ps) evs a
  | [], name, inside, _, n, _, set, shift, ctx, tr, hk => ⟨[], ctx.attrs, ⟨rfl, hk.attrs, fun _ => rfl, [], Same.refl _, fun s => by cases condsEval s <;> rfl⟩⟩
  | p :: ps, name, inside, h, n, hn, set, shift, ctx, tr, hk => by
    have hn : max p.depth (depth ps) ≤ n := hn
    obtain ⟨e1, a1, h1⟩ := part_amounts hE hI hb hapi p name inside h.1 n (by omega) set shift ctx tr hk
    obtain ⟨e2, a2, h2⟩ := parts_amount hE hI hb hapi ps name inside h.2 n (by omega) (p.after set) shift _ tr (hk.next h1.knows)
    exact ⟨_, a2, amounts_append h1 h2⟩
end

mutual
theorem part_lines (hE : Reads env S elem sects within) : ∀ (p : Part) (name : Text) (inside : Bool), p.Ok env (C50.alnum S) name inside → ∀ l ∈ p.written, NoEol l ∧ utf8Len l ≤ 65535
  | .line l, _, _, h, x, hx => by rw [List.mem_singleton.mp hx]; exact ⟨h.untouched.line, h.untouched.short⟩
  | .heading n t, _, _, h, x, hx => by
    rw [List.mem_singleton.mp hx]
    obtain ⟨_, _, _, hl, hu⟩ := h
    exact ⟨(title_untouched hl hu).line, hu⟩
  | .declare _ l, _, _, h, x, hx => by rw [List.mem_singleton.mp hx]; exact ⟨h.1.line, h.1.short⟩
  | .reset _ l, _, _, h, x, hx => by rw [List.mem_singleton.mp hx]; exact ⟨h.1.line, h.1.short⟩
  | .when p n g ps a g', name, inside, h, x, hx => by
    obtain ⟨hn, hd, hps, he⟩ := h
    rcases List.mem_cons.mp hx with rfl | hx
    · exact ⟨(C71.directive_of (k := C50.keyword p) (by cases p <;> rfl) hd).noEol (by cases p <;> (unfold C50.NoEol; decide)), hd.short⟩
    · rcases List.mem_append.mp hx with hx | hx
      · exact parts_lines hE ps name inside hps x hx
      · rw [List.mem_singleton.mp hx]
        exact ⟨(C71.directive_of (k := "endif::") rfl he).noEol (by unfold C50.NoEol; decide), he.short⟩
  | .short p n c g, _, _, h, x, hx => by
    rw [List.mem_singleton.mp hx]
    exact ⟨(C71.directive_of (k := C50.keyword p) (by cases p <;> rfl) h.2.2).noEol (by cases p <;> (unfold C50.NoEol; decide)), h.2.2.short⟩
  | .fence c k g ps g', name, inside, h, x, hx => by
    obtain ⟨hi, ⟨m, kind, hm, hmk⟩, hg, hg', hs, hs', hps⟩ := h
    rcases List.mem_cons.mp hx with rfl | hx
    · exact ⟨delimiter_noEol hm hg, hs⟩
    · rcases List.mem_append.mp hx with hx | hx
      · exact parts_lines hE ps name true hps x hx
      · rw [List.mem_singleton.mp hx]
        exact ⟨delimiter_noEol hm hg', hs'⟩
  | .file p k o g all ps, _, _, h, x, hx => by rw [List.mem_singleton.mp hx]; exact ⟨inclusion_noEol h.1, h.1.short⟩
  | .plain p k g all ls, _, _, h, x, hx => by rw [List.mem_singleton.mp hx]; exact ⟨inclusion_noEol h.1, h.1.short⟩
theorem parts_lines (hE : Reads env S elem sects within) : ∀ (ps : List Part) (name : Text) (inside : Bool), Ok env (C50.alnum S) name inside ps → ∀ l ∈ written ps, NoEol l ∧ utf8Len l ≤ 65535
  | [], _, _, _, _, hx => nomatch hx
  | p :: ps, name, inside, h, x, hx => by
    rcases List.mem_append.mp hx with hx | hx
    · exact part_lines hE p name inside h.1 x hx
    · exact parts_lines hE ps name inside h.2 x hx
end

/-- **C72**: a document with conditions and with files included in it, and in each other, to any depth, amounts to its lines, those of the files in the place of the directives. -/
theorem inclusions_replaced (hE : Reads env S elem sects within) (hI : Includes S elem) (hb : C39.ClassOK env.alnum) (k : Nat) (file : Text) (hapi : AMap.WF api) {ps : List Part}
    (h : Ok env (C50.alnum S) file false ps) (hk : depth ps ≤ k) :
    preprocess env (k + 1) (rootCtx file api) (unlines (written ps)) = .ok (joinLF (lines (given api) [] 0 ps), []) := by
  have hR : Reading api file false [] 0 (rootCtx file api) [] := by
    refine ⟨⟨rfl, List.nodup_nil, fun n => ⟨fun h => ?_, fun h => nomatch h⟩⟩, rfl, rfl, fun _ => rfl, ⟨[], fun _ h => (nomatch h), rfl, rfl⟩, fun _ => rfl⟩
    have h : (AMap.get ([] : AMap Val) (String.ofList n)).isSome = true := h
    rw [AMap.get_nil] at h
    cases h
  obtain ⟨evs, a, ha⟩ := parts_amount hE hI hb hapi ps file false h k hk [] 0 (rootCtx file api) [] hR
  obtain ⟨cs, hs, hc⟩ := ha.chunks
  rw [C01.preprocess_eq, C50.untouched_scan (parts_lines hE ps file false h), ha.runs]
  dsimp only
  rw [← C01.chunks_eq_visible, hc, ← hs.text]
  rfl

end
end C72
end Verif
