import Verif.Props.RefSubst
import Verif.Props.HeaderParse
/-!
# C67 — Declarations of attributes, in the document

The grammar reads `:name: value` with a value of text and references, and `:!name:` or `:name!:`.
-/
namespace Verif
namespace C67
open Peg Grammar Actions Referenced
open Subs (Sub)
open Paragraphs (Line)
open C59 (Cut)
open PlainText (isSpecial)
open Walk (Any)

variable {σ : Type} {S : Sem σ} {A : Peg.Code σ} {t z : Text}

/-- What remains of the value of a declaration. -/
structure Rest (alnum : Char → Bool) (v : List Tok) : Prop where
  simple : ∀ t ∈ v, t.Simple alnum
  last : ∀ c, v.getLast? = some (.char c) → Rend.goSpace c = false
  noMacro : ¬ "pass:".toList <:+: Referenced.written v

theorem Rest.suffix {alnum : Char → Bool} {a b : List Tok} (h : Rest alnum (a ++ b)) : Rest alnum b := by
  refine ⟨fun t ht => h.simple t (List.mem_append_right _ ht), fun c hc => h.last c ?_, fun hi => h.noMacro ?_⟩
  · have : b ≠ [] := by rintro rfl; cases hc
    rw [List.getLast?_append_of_ne_nil _ this]; exact hc
  · rw [written_append]; exact hi.trans (List.suffix_append _ _).isInfix

theorem simple_ok {alnum : Char → Bool} {x : Tok} (h : x.Simple alnum) : x.Ok alnum := by
  cases x with
  | char c =>
    have : c ∉ ['{', '\\', '<', '>', '&', '+', '\r', '\n'] := h
    simp only [List.mem_cons, List.not_mem_nil, or_false, not_or] at this
    exact ⟨this.1, this.2.1⟩
  | ref n => exact h
  | kept n => exact h.elim
  | count n => exact h.elim
  | step n => exact h.elim

theorem blank_space {c : Char} (h : isBlank c = true) : Rend.goSpace c = true := by
  simp only [isBlank, Bool.or_eq_true, beq_iff_eq] at h
  rcases h with rfl | rfl <;> decide

/-- There is something else than blanks in what remains. -/
theorem rest_split {alnum : Char → Bool} : ∀ {v : List Tok}, Rest alnum v → v ≠ [] → ∃ a d b, written v = a ++ d :: b ∧ (∀ c ∈ a, isBlank c = true) ∧
    isBlank d = false ∧ isEol d = false ∧ (written v).head? ≠ some '\\'
  | [], _, h => absurd rfl h
  | x :: v, h, _ => by
    cases x with
    | ref n => exact ⟨[], '{', _, rfl, (fun _ h => nomatch h), rfl, rfl, by show some '{' ≠ some '\\'; decide⟩
    | kept n => exact (h.simple _ List.mem_cons_self).elim
    | count n => exact (h.simple _ List.mem_cons_self).elim
    | step n => exact (h.simple _ List.mem_cons_self).elim
    | char c =>
      have hc : c ∉ ['{', '\\', '<', '>', '&', '+', '\r', '\n'] := h.simple _ List.mem_cons_self
      simp only [List.mem_cons, List.not_mem_nil, or_false, not_or] at hc
      have hb : (written (.char c :: v)).head? ≠ some '\\' := by
        show some c ≠ some '\\'
        exact fun e => hc.2.1 (Option.some.inj e)
      cases hbl : isBlank c with
      | false => exact ⟨[], c, written v, rfl, (fun _ h => nomatch h), hbl, by simp [isEol, hc], hb⟩
      | true =>
        have hv : v ≠ [] := by
          rintro rfl
          have := h.last c rfl
          rw [blank_space hbl] at this; cases this
        obtain ⟨a, d, b, e, h1, h2, h3, _⟩ := rest_split (v := v) (Rest.suffix (a := [.char c]) h) hv
        refine ⟨c :: a, d, b, ?_, ?_, h2, h3, hb⟩
        · show c :: written v = _
          rw [e]; rfl
        · intro y hy
          rcases List.mem_cons.mp hy with rfl | hy
          · exact hbl
          · exact h1 y hy

/-- The lookahead of an element of a value. -/
def stop : Exp := .scope (.seq (.opt (.lit ['\\'])) (.seq (.star (.rule R.Space)) (.rule R.EOL)))

theorem never_stop {v : List Tok} {alnum : Char → Bool} (h : Rest alnum v) (hne : v ≠ []) : Never grammar S stop (written v ++ z) := by
  obtain ⟨a, d, b, e, h1, h2, h3, h4⟩ := rest_split h hne
  have hhead : ∃ c t, written v ++ z = c :: t ∧ c ≠ '\\' := by
    cases hw : written v with
    | nil => rw [hw] at e; cases a <;> cases e
    | cons c w => exact ⟨c, w ++ z, rfl, fun hc => h4 (by rw [hw, hc]; rfl)⟩
  obtain ⟨c, t, ht, hc⟩ := hhead
  have hlit : Never grammar S (.lit ['\\']) (written v ++ z) := by
    rw [ht]; exact C50.never_lit_head (by decide) hc
  refine yields_scope (yields_seq (yields_opt_none hlit) ?_)
  rw [e, List.append_assoc]
  have hs := yields_spaces (S := S) (t := a ++ (d :: b ++ z))
  rw [List.dropWhile_append_of_pos h1, List.cons_append, List.dropWhile_cons_of_neg (by rw [h2]; decide)] at hs
  refine yields_seq hs ((yields_EOL (S := S)).to ?_)
  simp only [isEol, Bool.or_eq_false_iff, beq_eq_false_iff_ne] at h3
  show (match d :: (b ++ z) with | [] => some [] | t => newline t) = none
  show newline (d :: (b ++ z)) = none
  unfold newline
  split <;> simp_all

theorem sure_stop (hz : Cut z t) : Sure grammar S stop z := by
  cases hz with
  | line =>
    refine (yields_scope (yields_seq (yields_opt_none (C50.never_lit_head (by decide) (by decide))) (yields_seq (yields_spaces (S := S)) ((yields_EOL (S := S)).to (o' := some t) ?_)))).sure
    rfl
  | eof =>
    refine (yields_scope (yields_seq (yields_opt_none (yields_lit.to rfl)) (yields_seq (yields_spaces (S := S)) ((yields_EOL (S := S)).to (o' := some []) ?_)))).sure
    rfl

/-- Text in a value is read up to a space or a reference. -/
theorem plain_run {alnum : Char → Bool} (t : Text) : ∀ {v : List Tok}, (∀ t ∈ v, t.Simple alnum) → ∃ (w : Text) (v' : List Tok), v = w.map .char ++ v' ∧ (∀ c ∈ w, C50.isPlain c = true) ∧
    ∀ z, Cut z t → ∀ c, (written v' ++ z).head? = some c → C50.isPlain c = false
  | [], _ => ⟨[], [], rfl, (fun _ h => nomatch h), fun z hz c hc => by cases hz with
    | line => cases hc; rfl
    | eof => cases hc⟩
  | x :: v, h => by
    have stay : ∀ c, x.written.head? = some c → C50.isPlain c = false → ∃ (w : Text) (v' : List Tok), x :: v = w.map .char ++ v' ∧ (∀ c ∈ w, C50.isPlain c = true) ∧
        ∀ z, Cut z t → ∀ c, (written v' ++ z).head? = some c → C50.isPlain c = false := by
      intro c hc hp
      refine ⟨[], x :: v, rfl, (fun _ h => nomatch h), fun z hz d hd => ?_⟩
      have : (written (x :: v) ++ z).head? = some c := by
        show (x.written ++ written v ++ z).head? = _
        cases hw : x.written with
        | nil => rw [hw] at hc; cases hc
        | cons y u => rw [hw] at hc; exact hc
      rw [this] at hd; cases hd; exact hp
    cases x with
    | ref n => exact stay '{' rfl rfl
    | kept n => exact (h _ List.mem_cons_self).elim
    | count n => exact (h _ List.mem_cons_self).elim
    | step n => exact (h _ List.mem_cons_self).elim
    | char c =>
      cases hp : C50.isPlain c with
      | false => exact stay c rfl hp
      | true =>
        obtain ⟨w, v', e, h1, h2⟩ := plain_run t (v := v) (fun t ht => h t (List.mem_cons_of_mem _ ht))
        refine ⟨c :: w, v', by rw [e]; rfl, ?_, h2⟩
        intro y hy
        rcases List.mem_cons.mp hy with rfl | hy
        · exact hp
        · exact h1 y hy

theorem written_chars (w : Text) : written (w.map .char) = w := by
  induction w with
  | nil => rfl
  | cons c w ih => show c :: written (w.map .char) = _; rw [ih]

/-- What the grammar does with an element of a value. -/
theorem exactly_valueElement (hA : Obeys A) (hE : ∀ s st t, (S.pred 102 s st t).1 = true) (hC : Ascii S) (hz : Cut z t) {v : List Tok}
    (h : Rest (C59.alnum S) v) (hne : v ≠ []) {st : Text} :
    ∃ a b x, v = a ++ b ∧ a ≠ [] ∧ Stands a x ∧ Exactly grammar S A st (.rule R.AttributeDeclarationValueElement) (written v ++ z) [x] (written b ++ z) := by
  have hstop : Never grammar S stop (written v ++ z) := never_stop h hne
  have key : ∀ {a b : List Tok} {x : Any}, v = a ++ b → a ≠ [] → Stands a x →
      Exactly grammar S A (written v ++ z) (.alt (.rule R.InlinePassthrough) (.alt (.act 58 (.plus (.cls ⟨true, ['\r', '\n', '<', '>', '&', '{',
    ' '], [], false, false⟩))) (.alt (.rule R.SpecialCharacter) (.alt (.rule R.Space) (.rule R.AttributeReference))))) (written v ++ z) [x] (written b ++ z) →
      ∃ a b x, v = a ++ b ∧ a ≠ [] ∧ Stands a x ∧ Exactly grammar S A st (.rule R.AttributeDeclarationValueElement) (written v ++ z) [x] (written b ++ z) :=
    fun h1 h2 h3 h4 => ⟨_, _, _, h1, h2, h3, exactly_rule (exactly_act (exactly_scope (exactly_seq (exactly_notP hstop) h4)) (fun s => hA 59 s _ _ _ rfl))⟩
  have hhead : ∀ r, written v ++ z ≠ '+' :: r := by
    intro r e
    cases v with
    | nil => exact absurd rfl hne
    | cons x v =>
      have hx := h.simple x List.mem_cons_self
      cases x with
      | ref n => cases e
      | kept n => exact hx.elim
      | count n => exact hx.elim
      | step n => exact hx.elim
      | char c =>
        have : c ∉ ['{', '\\', '<', '>', '&', '+', '\r', '\n'] := hx
        have e : c = '+' := (List.cons.inj (show c :: (written v ++ z) = '+' :: r from e)).1
        exact this (by simp [e])
  have hpass : Never grammar S (.rule R.InlinePassthrough) (written v ++ z) :=
    C50.never_passthrough hhead (fun hp => h.noMacro (C59.prefix_line hz (by decide) hp).isInfix)
  obtain ⟨w, v', e, hw, hstops⟩ := plain_run t h.simple
  by_cases hw0 : w = []
  · subst hw0
    cases v with
    | nil => exact absurd rfl hne
    | cons x v2 =>
      have hx := h.simple x List.mem_cons_self
      have ev : v' = x :: v2 := by simpa using e.symm
      have hnp : ∀ c, (written (x :: v2) ++ z).head? = some c → C50.isPlain c = false := by
        have := hstops z hz
        rwa [ev] at this
      cases x with
      | kept n => exact hx.elim
      | count n => exact hx.elim
      | step n => exact hx.elim
      | ref n =>
        refine key (a := [.ref n]) (b := v2) rfl (fun h => nomatch h) (stands_value _) ?_
        have hr := reference (A := A) (S := S) (st := written (.ref n :: v2) ++ z) (u := written v2 ++ z) hA hE hC (simple_ok hx) (fun c h => nomatch h)
        have e2 : written (.ref n :: v2) ++ z = Tok.written (.ref n) ++ (written v2 ++ z) := List.append_assoc _ _ _
        rw [← e2] at hr
        refine exactly_alt_right hpass (exactly_alt_right ?_ (exactly_alt_right ?_ (exactly_alt_right ?_ hr)))
        · refine yields_act (C58.never_plus_class ?_)
          rw [C50.has_plain]; rfl
        · exact C50.never_special (by decide)
        · exact never_Space rfl
      | char c =>
        have hp := hnp c rfl
        have hc : c ∉ ['{', '\\', '<', '>', '&', '+', '\r', '\n'] := hx
        simp only [List.mem_cons, List.not_mem_nil, or_false, not_or] at hc
        obtain rfl : c = ' ' := by
          simp only [C50.isPlain, Bool.not_eq_false', Bool.or_eq_true, beq_iff_eq] at hp
          rcases hp with (((((hp | hp) | hp) | hp) | hp) | hp) | hp
          · exact absurd hp hc.2.2.2.2.2.2.1
          · exact absurd hp hc.2.2.2.2.2.2.2
          · exact absurd hp hc.2.2.1
          · exact absurd hp hc.2.2.2.1
          · exact absurd hp hc.2.2.2.2.1
          · exact absurd hp hc.1
          · exact hp
        refine key (a := [.char ' ']) (b := v2) (x := .text [' ']) rfl (fun h => nomatch h) (stands_piece (w := [' ']) (.text (by decide))) ?_
        refine exactly_alt_right hpass (exactly_alt_right ?_ (exactly_alt_right ?_ (exactly_alt_left ?_)))
        · refine yields_act (C58.never_plus_class ?_)
          rw [C50.has_plain]; rfl
        · exact C50.never_special (by decide)
        · show Exactly grammar S A _ (.rule R.Space) (' ' :: (written v2 ++ z)) [.text [' ']] (written v2 ++ z)
          refine exactly_rule (exactly_of_yields (id := 457) (y := .text [' ']) (u := written v2 ++ z) (yields_cls (by rw [has_blank]; rfl)) (fun s v => ?_))
          rw [show ' ' :: (written v2 ++ z) = [' '] ++ (written v2 ++ z) from rfl, C58.span_append]
          exact hA 457 s v _ _ rfl
  · have hws : ∀ c ∈ w, isSpecial c = false := by
      intro c hc
      have hp := hw c hc
      simp only [C50.isPlain, Bool.not_eq_true', Bool.or_eq_false_iff, beq_eq_false_iff_ne] at hp
      simp [isSpecial, hp]
    refine key (a := w.map .char) (b := v') (x := .str w) e (by simpa using hw0) (stands_piece (.str (fun c hc => hws c hc))) ?_
    have e2 : written v ++ z = w ++ (written v' ++ z) := by
      rw [e, written_append, written_chars, List.append_assoc]
    rw [e2] at hpass ⊢
    refine exactly_alt_right hpass (exactly_alt_left (exactly_of_yields (y := .str w) (u := written v' ++ z) ?_ (fun s v => ?_)))
    · have := C50.yields_plus_cls (S := S) (c := ⟨true, ['\r', '\n', '<', '>', '&', '{', ' '], [], false, false⟩) C50.isPlain C50.has_plain (w ++ (written v' ++ z))
      have ht : (written v' ++ z).takeWhile C50.isPlain = [] := by
        cases hq : written v' ++ z with
        | nil => rfl
        | cons c u => exact List.takeWhile_cons_of_neg (by rw [hstops z hz c (by rw [hq]; rfl)]; decide)
      have hd : (written v' ++ z).dropWhile C50.isPlain = written v' ++ z := by
        cases hq : written v' ++ z with
        | nil => rfl
        | cons c u => exact List.dropWhile_cons_of_neg (by rw [hstops z hz c (by rw [hq]; rfl)]; decide)
      rw [List.takeWhile_append_of_pos hw, List.dropWhile_append_of_pos hw, ht, hd, List.append_nil, if_neg hw0] at this
      exact this
    · rw [C58.span_append]; exact hA 58 s v _ _ rfl

/-- The elements of a value. -/
theorem exactly_valueElements (hA : Obeys A) (hE : ∀ s st t, (S.pred 102 s st t).1 = true) (hC : Ascii S) (hz : Cut z t) {v : List Tok}
    (h : Rest (C59.alnum S) v) {st : Text} :
    ∃ vs, Parts v vs ∧ Exactly grammar S A st (.star (.rule R.AttributeDeclarationValueElement)) (written v ++ z) [.slice vs] z := by
  induction hl : v.length using Nat.strongRecOn generalizing v with
  | ind n ih =>
    by_cases hne : v = []
    · subst hne
      refine ⟨[], .nil, exactly_star_stop (yields_rule (yields_act (yields_scope (never_seq (never_notP ?_)))))⟩
      exact sure_stop (S := S) hz
    · obtain ⟨a, b, x, rfl, ha, hx, he⟩ := exactly_valueElement (st := st) hA hE hC hz h hne
      obtain ⟨vs, hp, hs⟩ := ih b.length (by
        have := List.length_pos_iff.mpr ha
        rw [List.length_append] at hl; omega) h.suffix rfl
      exact ⟨x :: vs, .cons hx hp, exactly_star_step (v := [x]) he hs⟩

/-- The value of a declaration, after its spaces are trimmed. -/
def declared (v : List Tok) : Any := match elems v with
  | [.str w] => .text w
  | es => .slice es

theorem written_last {alnum : Char → Bool} : ∀ {v : List Tok}, (∀ t ∈ v, t.Simple alnum) → ∀ {c}, (written v).getLast? = some c →
    c = '}' ∨ v.getLast? = some (.char c)
  | [], _, c, hc => nomatch hc
  | [x], h, c, hc => by
    cases x with
    | char d => exact .inr (by cases hc; rfl)
    | ref n =>
      left
      have : written [.ref n] = "{".toList ++ n.toList ++ "}".toList := List.append_nil _
      rw [this, List.getLast?_append_of_ne_nil _ (by decide)] at hc
      cases hc; rfl
    | kept n => exact (h _ List.mem_cons_self).elim
    | count n => exact (h _ List.mem_cons_self).elim
    | step n => exact (h _ List.mem_cons_self).elim
  | x :: y :: v, h, c, hc => by
    obtain ⟨d, u, e⟩ := written_ne y v
    have e2 : written (x :: y :: v) = x.written ++ written (y :: v) := rfl
    rw [e2, List.getLast?_append_of_ne_nil _ (by rw [e]; exact fun h => nomatch h)] at hc
    rw [List.getLast?_cons_cons]
    exact written_last (v := y :: v) (fun t ht => h t (List.mem_cons_of_mem _ ht)) hc

theorem value_char {c : Char} {alnum : Char → Bool} (h : Tok.Simple alnum (.char c)) : value (.char c) = .str [c] := by
  have hc : c ∉ ['{', '\\', '<', '>', '&', '+', '\r', '\n'] := h
  simp only [List.mem_cons, List.not_mem_nil, or_false, not_or] at hc
  show (if isSpecial c = true then _ else _) = _
  rw [if_neg (by simp [isSpecial, hc])]

theorem consBuf_ne (c : Char) (es : List Any) : consBuf [c] es ≠ [] := by
  cases es with
  | nil => exact fun h => nomatch h
  | cons e es => cases e <;> exact fun h => nomatch h

theorem elems_ne {alnum : Char → Bool} {v : List Tok} (h : ∀ t ∈ v, t.Simple alnum) (hv : v ≠ []) : elems v ≠ [] := by
  obtain ⟨x, v, rfl⟩ := List.exists_cons_of_ne_nil hv
  cases x with
  | ref n => exact fun h => nomatch h
  | kept n => exact (h _ List.mem_cons_self).elim
  | count n => exact fun h => nomatch h
  | step n => exact fun h => nomatch h
  | char d =>
    show consV (value (.char d)) (elems v) ≠ []
    rw [value_char (h _ List.mem_cons_self)]
    exact consBuf_ne d _

theorem elems_str {alnum : Char → Bool} {v : List Tok} (h : ∀ t ∈ v, t.Simple alnum) {w : Text} (he : elems v = [.str w]) : w = written v := by
  induction v generalizing w with
  | nil => cases he
  | cons x v ih =>
    have hv : ∀ t ∈ v, t.Simple alnum := fun t ht => h t (List.mem_cons_of_mem _ ht)
    have ih := fun {w} => ih (w := w) hv
    cases x with
    | ref n => cases he
    | kept n => exact (h _ List.mem_cons_self).elim
    | count n => exact (h _ List.mem_cons_self).elim
    | step n => exact (h _ List.mem_cons_self).elim
    | char c =>
      have e : consV (value (.char c)) (elems v) = [.str w] := he
      rw [value_char (h _ List.mem_cons_self)] at e
      replace e : consBuf [c] (elems v) = [.str w] := e
      cases hq : elems v with
      | nil =>
        rw [hq] at e
        have e1 : [c] = w := Any.str.inj (List.cons.inj (show [Any.str [c]] = [.str w] from e)).1
        by_cases hv0 : v = []
        · rw [hv0, ← e1]; rfl
        · exact absurd hq (elems_ne hv hv0)
      | cons y es =>
        rw [hq] at e
        have hy : ∃ u, y = .str u ∧ es = [] ∧ w = c :: u := by
          cases y <;> first
            | exact absurd (List.cons.inj (show Any.str [c] :: _ :: es = [.str w] from e)).2 (fun h => nomatch h)
            | (obtain ⟨e1, e2⟩ := List.cons.inj (show Any.str ([c] ++ _) :: es = [.str w] from e)
               exact ⟨_, rfl, e2, (Any.str.inj e1).symm⟩)
        obtain ⟨u, rfl, rfl, rfl⟩ := hy
        rw [ih hq]; rfl

theorem value_trimmed {alnum : Char → Bool} {v : List Tok} (h : Value alnum v) : trimSpace (written v) = written v := by
  refine C66.trim_id ⟨fun c hc => ?_, fun c hc => ?_⟩
  · cases v with
    | nil => cases hc
    | cons x v =>
      cases x with
      | ref n => cases hc; rfl
      | kept n => exact (h.simple _ List.mem_cons_self).elim
      | count n => exact (h.simple _ List.mem_cons_self).elim
      | step n => exact (h.simple _ List.mem_cons_self).elim
      | char d => cases hc; exact h.first _ rfl
  · rcases written_last h.simple hc with rfl | hl
    · rfl
    · exact h.last _ hl

theorem reduce_parts {alnum : Char → Bool} {v : List Tok} (h : Value alnum v) {vs : List Any} (hp : Parts v vs) :
    reduceTrim (.slice (vs ++ [])) = declared v ∧ reduceTrim (declared v) = declared v := by
  have hm : Walk.merge (vs ++ []) = elems v := by rw [List.append_nil, merge_flat (parts_flat hp), parts_norm hp]
  have hflat : Walk.merge (elems v) = elems v := by
    rw [← parts_norm hp, merge_flat (flat_norm (parts_flat hp)), norm_norm _ (parts_flat hp)]
  have hn := elems_ne h.simple h.nonempty
  constructor
  · show (match Walk.merge (vs ++ []) with | [] => Any.nil | [.str t] => .text (trimSpace t) | es => .slice es) = declared v
    rw [hm]
    unfold declared
    split
    · next e => exact absurd e hn
    · next w e =>
      obtain rfl := elems_str h.simple e
      rw [value_trimmed h, e]
    · next h1 =>
      split
      · next w e => exact absurd e (h1 w)
      · rfl
  · unfold declared
    split
    · next w e =>
      obtain rfl := elems_str h.simple e
      show (if trimSpace (written v) = [] then Any.nil else .text (trimSpace (written v))) = _
      rw [value_trimmed h, if_neg]
      obtain ⟨x, v', rfl⟩ := List.exists_cons_of_ne_nil h.nonempty
      obtain ⟨c, t, e⟩ := written_ne x v'
      rw [e]; exact fun h => nomatch h
    · next es h1 =>
      show (match Walk.merge (elems v) with | [] => Any.nil | [.str t] => .text (trimSpace t) | es => .slice es) = _
      rw [hflat]
      split
      · next e => exact absurd e hn
      · next w e => exact absurd e (h1 w)
      · rfl

/-- `Spaces`, with its value. -/
theorem spacesText (hA : Obeys A) {w x st : Text} (hw : ∀ c ∈ w, isBlank c = true) (hne : w ≠ []) (hx : ∀ c, x.head? = some c → isBlank c = false) :
    ∃ v, Exactly grammar S A st (.rule R.Spaces) (w ++ x) [v] x := by
  refine ⟨.text w, exactly_rule (exactly_of_yields (u := x) (y := .text w) ?_ (fun s v => ?_))⟩
  · have := C50.yields_plus_cls (S := S) (c := ⟨false, ['\t', ' '], [], false, false⟩) isBlank has_blank (w ++ x)
    have ht : x.takeWhile isBlank = [] := by
      cases x with
      | nil => rfl
      | cons c u => exact List.takeWhile_cons_of_neg (by rw [hx c rfl]; decide)
    have hd : x.dropWhile isBlank = x := by
      cases x with
      | nil => rfl
      | cons c u => exact List.dropWhile_cons_of_neg (by rw [hx c rfl]; decide)
    rw [List.takeWhile_append_of_pos hw, List.dropWhile_append_of_pos hw, ht, hd, List.append_nil, if_neg hne] at this
    exact this
  · rw [C58.span_append]; exact hA _ s v _ _ rfl

/-- A declaration, in the grammar. -/
theorem declaration (hA : Obeys A) (hE : ∀ s st t, (S.pred 102 s st t).1 = true) (hC : Ascii S) (hz : Cut z t) {n : String} {gap : Text} {v : List Tok}
    (hn : Name (C59.alnum S) n) (hgap : gap ≠ []) (hg : ∀ c ∈ gap, isBlank c = true) (hv : Value (C59.alnum S) v) {st : Text} :
    Exactly grammar S A st (.rule R.AttributeDeclaration) (':' :: (n.toList ++ ':' :: (gap ++ (written v ++ z)))) [.declare n (declared v)] t := by
  have hcolon := ends_name hC (d := ':') (by decide) (by decide) (by decide)
  have hhead : ∀ c, (written v ++ z).head? = some c → isBlank c = false := by
    intro c hc
    obtain ⟨x, v, rfl⟩ := List.exists_cons_of_ne_nil hv.nonempty
    have hb : ∀ d, Rend.goSpace d = false → isBlank d = false := fun d hd => by
      cases hb : isBlank d with
      | false => rfl
      | true => rw [blank_space hb] at hd; cases hd
    cases x with
    | ref n => cases hc; rfl
    | kept n => exact (hv.simple _ List.mem_cons_self).elim
    | count n => exact (hv.simple _ List.mem_cons_self).elim
    | step n => exact (hv.simple _ List.mem_cons_self).elim
    | char d => cases hc; exact hb _ (hv.first _ rfl)
  obtain ⟨y, hy⟩ := spacesText (S := S) (A := A) (st := gap ++ (written v ++ z)) hA hg hgap hhead
  obtain ⟨vs, hp, hs⟩ := exactly_valueElements (st := written v ++ z) hA hE hC hz ⟨hv.simple, hv.last, hv.noMacro⟩
  obtain ⟨eo, heo⟩ := C62.eolV (S := S) (A := A) hA hz
  have hr := reduce_parts hv hp
  have hstop : Never grammar S (.act 55 (.scope (.seq (.lit ['\\']) (.seq (.rule R.Newline) (.seq (.star (.rule R.Space)) (.rule R.AttributeDeclarationValueElements)))))) z := by
    refine yields_act (yields_scope (never_seq ?_))
    cases hz with
    | line => exact C50.never_lit_head (by decide) (by decide)
    | eof => exact yields_lit.to rfl
  have hval : ∀ st, Exactly grammar S A st (.rule R.AttributeDeclarationValue) (written v ++ z) [declared v] z := by
    intro st
    refine exactly_rule (exactly_act (exactly_scope (exactly_seq (exactly_rule (exactly_act hs (fun s => hA 57 s _ _ _ rfl))) (exactly_star_stop hstop))) (fun s => ?_))
    rw [hA 56 s _ _ _ rfl, hr.1]
  have hn' : C35.NameText (C59.alnum S) n.toList := hn
  refine exactly_rule (exactly_act (exactly_scope (exactly_seq (exactly_char (u := n.toList ++ ':' :: (gap ++ (written v ++ z)))) (exactly_seq (exactly_name hA hn' hcolon)
    (exactly_seq (exactly_char (u := gap ++ (written v ++ z))) (exactly_seq (exactly_opt (exactly_act (exactly_scope (exactly_seq hy (hval _))) (fun s => hA 52 s _ _ _ rfl))) (heo _)))))) (fun s => ?_))
  rw [hA 53 s _ _ _ rfl, hr.2, String.ofList_toList]

/-- Resets, in the grammar. -/
theorem reset (hA : Obeys A) (hC : Ascii S) (hz : Cut z t) {n : String} {trail : Text} {before : Bool}
    (hn : Name (C59.alnum S) n) (hw : ∀ c ∈ trail, isBlank c = true) {st : Text} :
    Never grammar S (.rule R.AttributeDeclaration) (joinLF (Item.reset n before trail).lines ++ z) ∧
    Exactly grammar S A st (.rule R.AttributeReset) (joinLF (Item.reset n before trail).lines ++ z) [.reset n] t := by
  have hcolon := ends_name hC (d := ':') (by decide) (by decide) (by decide)
  have hbang := ends_name hC (d := '!') (by decide) (by decide) (by decide)
  have hn' : C35.NameText (C59.alnum S) n.toList := hn
  have hh : ∀ c, z.head? = some c → isBlank c = false := by
    intro c hc
    cases hz with
    | line => cases hc; rfl
    | eof => cases hc
  obtain ⟨eo, heo⟩ := C62.eolV (S := S) (A := A) hA hz
  cases before with
  | true =>
    have e : joinLF (Item.reset n true trail).lines ++ z = ':' :: '!' :: (n.toList ++ ':' :: (trail ++ z)) := by
      show ":!".toList ++ n.toList ++ ":".toList ++ trail ++ z = _
      simp
    rw [e]
    obtain ⟨vs, hs⟩ := C64.spacesV (S := S) (A := A) (st := ':' :: '!' :: (n.toList ++ ':' :: (trail ++ z))) hA hh hw
    constructor
    · refine yields_rule (yields_act (yields_scope (yields_seq (u := '!' :: (n.toList ++ ':' :: (trail ++ z))) (yields_lit.to rfl) (never_seq ?_))))
      refine yields_rule (yields_act (yields_scope (never_seq (yields_cls_no ?_))))
      have := hbang.1
      unfold C59.alnum at this
      rw [Bool.or_eq_false_iff] at this
      simp [Cls.has, this.1, this.2]
    · refine exactly_rule (exactly_alt_left (exactly_act (exactly_scope (exactly_seq (exactly_lit (l := [':', '!']) (u := n.toList ++ ':' :: (trail ++ z)) rfl) (exactly_seq (exactly_name hA hn' hcolon)
        (exactly_seq (exactly_char (u := trail ++ z)) (exactly_seq hs (heo _)))))) (fun s => ?_)))
      rw [hA 60 s _ _ _ rfl, String.ofList_toList]
  | false =>
    have e : joinLF (Item.reset n false trail).lines ++ z = ':' :: (n.toList ++ '!' :: ':' :: (trail ++ z)) := by
      show ":".toList ++ n.toList ++ "!:".toList ++ trail ++ z = _
      simp
    rw [e]
    obtain ⟨vs, hs⟩ := C64.spacesV (S := S) (A := A) (st := ':' :: (n.toList ++ '!' :: ':' :: (trail ++ z))) hA hh hw
    constructor
    · refine yields_rule (yields_act (yields_scope (yields_seq (u := n.toList ++ '!' :: ':' :: (trail ++ z)) (yields_lit.to rfl) ?_)))
      have hy := C50.yields_pName (S := S) (n.toList ++ '!' :: ':' :: (trail ++ z))
      rw [C35.pName_complete (C50.alnum S) n.toList '!' (':' :: (trail ++ z)) hn' hbang] at hy
      exact yields_seq hy (never_seq (C50.never_lit_head (by decide) (by decide)))
    · have hno : Never grammar S (.act 60 (.scope (.seq (.lit [':', '!']) (.seq (.rule R.AttributeName) (.seq (.lit [':']) (.seq (.star
          (.rule R.Space)) (.rule R.EOL))))))) (':' :: (n.toList ++ '!' :: ':' :: (trail ++ z))) := by
        refine yields_act (yields_scope (never_seq (C59.never_lit (by decide) ?_)))
        rintro ⟨q, hq⟩
        obtain ⟨c, r, e, hc, _⟩ := hn'
        rw [e] at hq
        have : '!' = c := (List.cons.inj (List.cons.inj hq).2).1
        rw [← this] at hc
        rcases hc with hc | hc
        · rw [hbang.1] at hc; cases hc
        · exact absurd hc (by decide)
      refine exactly_rule (exactly_alt_right hno (exactly_act (exactly_scope (exactly_seq (exactly_char (u := n.toList ++ '!' :: ':' :: (trail ++ z))) (exactly_seq (exactly_name hA hn' hbang)
        (exactly_seq (exactly_lit (l := ['!', ':']) (u := trail ++ z) rfl) (exactly_seq hs (heo _)))))) (fun s => ?_)))
      rw [hA 61 s _ _ _ rfl, String.ofList_toList]

/-! ### Fragments -/

/-- At a colon, block attributes, macros and paragraphs do not begin. -/
theorem colonFragment (hS : C59.Code S) (hA : Obeys A) {x u : Text} {v : Any} (hlt : u.length < (':' :: x).length)
    (he : ∀ st, Exactly grammar S A st (.rule R.AttributeDeclaration) (':' :: x) [v] u ∨
      (Never grammar S (.rule R.AttributeDeclaration) (':' :: x) ∧ Exactly grammar S A st (.rule R.AttributeReset) (':' :: x) [v] u)) {st : Text} :
    Exactly grammar S A st (.rule R.DocumentFragment) (':' :: x) [v] u := by
  have never : ∀ e, starts grammar ['[', '.', 'i'] 24 e = true → Never grammar S e (':' :: x) := fun e he =>
    starts_never (F := ['[', '.', 'i']) (by decide) 24 _ he
  have hno : S.letter ':' = false ∧ S.number ':' = false := ⟨(hS.ascii _ (by decide)).1, (hS.ascii _ (by decide)).2⟩
  refine C59.fragment hA hS (never _ (by decide)) hlt (fun st => exactly_alt_right (never _ (by decide)) (exactly_alt_right ?_ (exactly_alt_right ?_ ?_)))
  · refine yields_rule (yields_act (yields_scope (never_seq (yields_rule (yields_act (never_plus (yields_cls_no ?_)))))))
    simp [Cls.has, hno.1, hno.2]
  · refine yields_rule (yields_act (yields_scope (never_seq (never_andP (yields_scope (never_seq (yields_rule (yields_cls_no ?_))))))))
    simp [Cls.has, hno.1, hno.2]
  · rcases he st with h | ⟨h1, h2⟩
    · exact exactly_alt_left h
    · exact exactly_alt_right h1 (exactly_alt_left h2)

/-- What the parser makes of an item. -/
def element : Item → Any
  | .para l ls => .paragraph [] (Paragraphs.kept ((l :: ls).map TLine.line))
  | .blank _ => .leaf 0
  | .declare n _ v => .declare n (declared v)
  | .reset n _ _ => .reset n

end C67
end Verif
