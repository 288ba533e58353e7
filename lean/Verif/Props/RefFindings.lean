import Verif.Props.Referenced
import Verif.Props.HeaderParse
/-!
# C67 — Findings
-/
namespace Verif
namespace C67
open Peg Grammar Actions Referenced
open Walk (Any)

variable {σ : Type} {S : Sem σ} {A : Peg.Code σ}

theorem has_alpha (c : Char) : (Cls.mk false [] [('A', 'Z'), ('a', 'z')] false false).has S.letter S.number c =
    ((('A' ≤ c) && (c ≤ 'Z')) || (('a' ≤ c) && (c ≤ 'z'))) := by
  simp [Cls.has]

/-- The start of a hidden counter is read and dropped (parser.peg:662-664): `{counter2:n:5}` is the same as `{counter2:n}`. -/
theorem finding_hidden_start (hA : Obeys A) (hE : ∀ s st t, (S.pred 102 s st t).1 = true) (hC : Ascii S) {n : String} (hn : Name (C59.alnum S) n)
    {w : Text} {k : Int} (hw : w ≠ []) (hd : ∀ c ∈ w, c.isDigit = true) (hk : atoi w = some k) {u st : Text} :
    Exactly grammar S A st (.rule R.AttributeReference) ("{counter2:".toList ++ (n.toList ++ ':' :: (w ++ '}' :: u))) [value (.step n)] u := by
  have hp : ∀ {st t : Text}, Exactly grammar S A st (.pred 102) t [.nil] t := fun {st t} => exactly_pred (fun s => hE s _ _)
  have hcolon := ends_name hC (d := ':') (by decide) (by decide) (by decide)
  have key : ∀ {v}, (∀ st, Exactly grammar S A st (.alt (.rule R.AttributeReferenceValue) (.rule R.CounterReference)) ("{counter2:".toList ++ (n.toList ++ ':' :: (w ++ '}' :: u))) [v] u) →
      Exactly grammar S A st (.rule R.AttributeReference) ("{counter2:".toList ++ (n.toList ++ ':' :: (w ++ '}' :: u))) [v] u := fun h =>
    exactly_rule (exactly_act (exactly_scope (exactly_seq hp (h _))) (fun s => hA 103 s _ _ _ rfl))
  refine key (fun st => ?_)
  refine exactly_alt_right (never_value hA hC (m := "counter2".toList) (ascii_name hC (by decide) (by decide)) hcolon (by decide)) ?_
  refine exactly_rule (exactly_alt_right (yields_rule (yields_act (yields_scope (never_seq (yields_lit.to rfl))))) (exactly_rule ?_))
  have hstart : ∀ st, Exactly grammar S A st (.rule R.CounterStart) (':' :: (w ++ '}' :: u)) [.plain k.toNat] ('}' :: u) := by
    intro st
    have hdig : ∀ st, Exactly grammar S A st (.act 109 (.plus (.cls ⟨false, [], [('0', '9')], false, false⟩))) (w ++ '}' :: u) [.plain k.toNat] ('}' :: u) := by
      intro st
      refine exactly_of_yields (y := .plain k.toNat) (u := '}' :: u) ?_ (fun s v => ?_)
      · have := C50.yields_plus_cls (S := S) (c := ⟨false, [], [('0', '9')], false, false⟩) Char.isDigit C66.has_digit (w ++ '}' :: u)
        rw [List.takeWhile_append_of_pos hd, List.dropWhile_append_of_pos hd] at this
        have e1 : ('}' :: u).takeWhile Char.isDigit = [] := rfl
        have e2 : ('}' :: u).dropWhile Char.isDigit = '}' :: u := rfl
        rw [e1, e2, List.append_nil, if_neg hw] at this
        exact this
      · rw [C58.span_append]
        exact hA 109 s v _ _ (by show (atoi w).map _ = _; rw [hk]; rfl)
    have hnever : Never grammar S (.act 108 (.cls ⟨false, [], [('A', 'Z'), ('a', 'z')], false, false⟩)) (w ++ '}' :: u) := by
      obtain ⟨c, w, rfl⟩ := List.exists_cons_of_ne_nil hw
      have hc := hd c List.mem_cons_self
      refine yields_act (yields_cls_no ?_)
      rw [has_alpha]
      have h9 : c ≤ '9' := by
        have := (Char.isDigit_iff_toNat).mp hc
        exact this.2
      have h1 : ¬ ('A' ≤ c) := fun h => absurd (Char.le_trans h h9) (by decide)
      have h2 : ¬ ('a' ≤ c) := fun h => absurd (Char.le_trans h h9) (by decide)
      simp [h1, h2]
    exact exactly_rule (exactly_act (exactly_scope (exactly_seq exactly_char (exactly_alt_right hnever (hdig _)))) (fun s => hA 110 s _ _ _ rfl))
  refine exactly_act (exactly_scope (exactly_seq (exactly_lit rfl) (exactly_seq (exactly_name hA (name_text hn) hcolon)
    (exactly_seq (exactly_opt (hstart _)) exactly_char)))) (fun s => ?_)
  refine (hA 107 s _ _ _ rfl).trans ?_
  rw [String.ofList_toList]; rfl

example : atoi "05".toList = some 5 := by decide +kernel

/-- In the value of a declaration a reference cannot be escaped: in `:x: \\{y}`, `{y}` is a reference, after a backslash (parser.peg:343-358). -/
theorem finding_value_escape (hA : Obeys A) (hE : ∀ s st t, (S.pred 102 s st t).1 = true) (hC : Ascii S) {n : String} (hn : (Tok.ref n).Ok (C59.alnum S))
    {z t st : Text} (hz : C59.Cut z t) :
    Exactly grammar S A st (.star (.rule R.AttributeDeclarationValueElement)) ('\\' :: ((Tok.ref n).written ++ z)) [.slice [.str ['\\'], .ref n]] z := by
  have hbrace : ∃ r, (Tok.ref n).written ++ z = '{' :: r := ⟨n.toList ++ ("}".toList ++ z), app3 _ _ _ _⟩
  obtain ⟨r, hr⟩ := hbrace
  have hpass : Never grammar S (.rule R.InlinePassthrough) ('\\' :: ((Tok.ref n).written ++ z)) := by
    refine C50.never_passthrough (fun r e => nomatch e) ?_
    rintro ⟨x, e⟩; cases e
  have hpass2 : Never grammar S (.rule R.InlinePassthrough) ((Tok.ref n).written ++ z) := by
    rw [hr]
    refine C50.never_passthrough (fun r e => nomatch e) ?_
    rintro ⟨x, e⟩; cases e
  have hstop2 : Never grammar S stop ((Tok.ref n).written ++ z) := by
    rw [hr]
    refine yields_scope (yields_seq (yields_opt_none (C50.never_lit_head (by decide) (by decide))) ?_)
    have hs := yields_spaces (S := S) (t := '{' :: r)
    rw [List.dropWhile_cons_of_neg (by decide)] at hs
    exact yields_seq hs ((yields_EOL (S := S)).to rfl)
  have hstop : Never grammar S stop ('\\' :: ((Tok.ref n).written ++ z)) := by
    rw [hr]
    refine yields_scope (yields_seq (yields_opt_some (u := '{' :: r) (yields_lit.to rfl)) ?_)
    have hs := yields_spaces (S := S) (t := '{' :: r)
    rw [List.dropWhile_cons_of_neg (by decide)] at hs
    exact yields_seq hs ((yields_EOL (S := S)).to rfl)
  have h1 : Exactly grammar S A st (.rule R.AttributeDeclarationValueElement) ('\\' :: ((Tok.ref n).written ++ z)) [.str ['\\']] ((Tok.ref n).written ++ z) := by
    refine exactly_rule (exactly_act (exactly_scope (exactly_seq (exactly_notP hstop) (exactly_alt_right hpass (exactly_alt_left
      (exactly_of_yields (y := .str ['\\']) (u := (Tok.ref n).written ++ z) ?_ (fun s v => ?_)))))) (fun s => hA 59 s _ _ _ rfl))
    · have := C50.yields_plus_cls (S := S) (c := ⟨true, ['\r', '\n', '<', '>', '&', '{', ' '], [], false, false⟩) C50.isPlain C50.has_plain ('\\' :: ((Tok.ref n).written ++ z))
      rw [hr] at this ⊢
      exact this
    · rw [show '\\' :: ((Tok.ref n).written ++ z) = ['\\'] ++ ((Tok.ref n).written ++ z) from rfl, C58.span_append]
      exact hA 58 s v _ _ rfl
  have h2 : Exactly grammar S A st (.rule R.AttributeDeclarationValueElement) ((Tok.ref n).written ++ z) [.ref n] z := by
    have hrf := fun st => reference (A := A) (S := S) (st := st) (u := z) hA hE hC hn (fun c h => nomatch h)
    refine exactly_rule (exactly_act (exactly_scope (exactly_seq (exactly_notP hstop2) (exactly_alt_right hpass2 (exactly_alt_right ?_
      (exactly_alt_right ?_ (exactly_alt_right ?_ (hrf _))))))) (fun s => hA 59 s _ _ _ rfl))
    · rw [hr]
      refine yields_act (C58.never_plus_class ?_)
      rw [C50.has_plain]; rfl
    · rw [hr]; exact C50.never_special (by decide)
    · rw [hr]; exact never_Space rfl
  have h3 : Exactly grammar S A st (.star (.rule R.AttributeDeclarationValueElement)) z [.slice []] z :=
    exactly_star_stop (yields_rule (yields_act (yields_scope (never_seq (never_notP (sure_stop (S := S) hz))))))
  exact exactly_star_step (v := [_]) h1 (exactly_star_step (v := [_]) h2 h3)

/-- A declaration without value (`:x:`), and a paragraph that is a reference to it: if the grammar reads a reference as a reference and a placeholder
as a placeholder, the paragraph holds nothing (`nil`) -/
theorem empty_value {letter number : Char → Bool} {W : Walk.World} (hC : AsciiClasses letter number) (hW : Grammatical letter number W)
    (hP : ∀ c : Walk.Settings, c.entry = .normalGroup → W.parse c (Placeholders.placeholderText "1".toList) = some [.holder "1".toList]) {c : Walk.Ctx} {n : String}
    (hn : (Tok.ref n).Ok (fun d => letter d || number d)) (hp : PlainText.Plain others (written [.ref n])) (hapi : AMap.get c.api n = none) :
    ∃ c1 c2, Walk.substDeclare W c n .nil = .ok (.declare n .nil, c1) ∧
      Walk.substParagraph W c1 [] [] [.raw (written [.ref n])] = .ok (.paragraph [] [.nil], c2) := by
  refine ⟨if n = "experimental" then { c.set n .nil with opts := (c.set n .nil).opts ++ [.experimental true] } else c.set n .nil, ?_⟩
  have hget : ∀ c1 : Walk.Ctx, c1 = (if n = "experimental" then { c.set n .nil with opts := (c.set n .nil).opts ++ [.experimental true] } else c.set n .nil) →
      c1.get n = some .nil := by
    rintro c1 rfl
    unfold Walk.Ctx.get
    have h : ∀ c2 : Walk.Ctx, c2.api = c.api → c2.doc = AMap.set c.doc n .nil → (match AMap.get c2.api n with | some v => some v | none => AMap.get c2.doc n) = some .nil := by
      intro c2 h1 h2
      rw [h1, h2, hapi, AMap.get_set_self]
    by_cases he : n = "experimental"
    · rw [if_pos he]; exact h _ rfl rfl
    · rw [if_neg he]; exact h _ rfl rfl
  generalize hc1 : (if n = "experimental" then { c.set n .nil with opts := (c.set n .nil).opts ++ [.experimental true] } else c.set n .nil) = c1
  have hg := hget c1 hc1.symm
  refine ⟨c1, by rw [← hc1]; rfl, ?_⟩
  have hset := C59.settle_last (c1.opts ++ []) Subs.normal
  have hne : written [.ref n] ≠ [] := by
    obtain ⟨d, u, e⟩ := written_ne (.ref n) []
    rw [e]; exact List.cons_ne_nil _ _
  have hel : elems [.ref n] = [.ref n] := rfl
  have hparse := parse_refs hC hW hset.1 hset.2 (ts := [.ref n]) (by simp) (fun y hy => by simp at hy; subst hy; exact hn) hp
  rw [hel] at hparse
  have hwith : Walk.parseWith W (.slice [.raw (written [.ref n])]) Subs.normal (c1.opts ++ ([] ++ [.entry .normalGroup])) = .ok [.ref n] := by
    unfold Walk.parseWith
    simp only [Walk.serialize]
    have e : Walk.serializeLoop 0 [.raw (written [.ref n])] = (written [.ref n], []) := by
      show (written [.ref n] ++ [], _) = _
      rw [List.append_nil]; rfl
    rw [e]
    dsimp only
    rw [if_neg hne, ← List.append_assoc c1.opts, hparse]
    rfl
  have hslice : Walk.substSlice W c1 Subs.normal ([] ++ [.entry .normalGroup]) [.raw (written [.ref n])] = .ok ([.nil], c1.counters) := by
    unfold Walk.substSlice
    rw [hwith]
    simp only [List.isEmpty_cons, Bool.false_eq_true, if_false]
    rw [if_pos (by decide)]
    unfold Walk.replaceAndReparse
    have e : Subs.split Subs.normal = some later := rfl
    have hv : Walk.valueForRef W c1.get n = .ok (.nil, true) := by
      unfold Walk.valueForRef
      rw [hg]
    rw [e]
    simp only [Walk.replaceLoop, Walk.replaceOne, hv]
    have hset2 := C59.settle_last [] later
    have := hP (Walk.settle ([] ++ [.entry .normalGroup] ++ [.subs later])) hset2.1
    unfold Walk.finish
    dsimp only
    rw [if_pos (show (true || false) = true from rfl)]
    unfold Walk.parseWith
    simp only [Walk.serialize]
    have e2 : Walk.serializeLoop 0 [Walk.elementFor .nil] = (Placeholders.placeholderText "1".toList, [("1".toList, .nil)]) := rfl
    rw [e2]
    dsimp only
    rw [List.nil_append] at this
    rw [if_neg (by decide), this]
    rfl
  have hsubs : Walk.subsFor (Walk.paragraphOf (Walk.getTextD W [] "style")) [] = .ok Subs.normal := rfl
  unfold Walk.substParagraph
  have hattr : Walk.substAttrs W c1 [] [] = .ok [] := rfl
  rw [hattr]
  dsimp only
  rw [hsubs]
  dsimp only
  rw [hslice]
  rfl

/-- … and the conversion fails (elements.go:115-116): a reference to an attribute that was declared without value ends the conversion. -/
theorem finding_empty_value (L : Rend.Lib) (n : Nat) (c : Rend.Ctx) (hh : Rend.hasOption c.attrs "hardbreaks" = false) (hw : c.within = false) (hl : c.withinList = 0) :
    ∃ e, Rend.renderElement L (n + 2) (toEl (.paragraph [] [.nil])) c = .error e := by
  show ∃ e, Rend.renderParagraph L (Rend.renderElement L (n + 1)) _ [] [.other] c = .error e
  unfold Rend.renderParagraph
  show ∃ e, (if c.within = true ∨ c.withinList > 0 then (_ : Rend.M Text) else _) c = .error e
  rw [if_neg (by rw [hw, hl]; simp)]
  exact ⟨_, rfl⟩

end C67
end Verif
