import Verif.Props.InlinePieces
import Verif.Props.PlainParagraphs

/-!
# C65 — Inline markup: the substitutions of a paragraph
-/
namespace Verif
namespace C65
open Peg Grammar Actions PlainText Inlined Paragraphs
open Walk (Any World Settings)
open Subs (Sub)
open Prose (char)

section
variable {σ : Type} {S : Sem σ} {A : Peg.Code σ} {E : List Sub} {f : σ → Option Char} {t : Text} {u : View} {ps : List Inlined.Piece}

/-- The whole text. -/
theorem group_holds (h : Inl S A E f) (hc : Content S.letter S.number t ps) (hne : t ≠ []) {st : Text} :
    Holds grammar S A f none st (.rule R.NormalGroup) t (fun o _ => ∃ es, o = some ([.slice es], []) ∧ Draws u es (Inlined.html u ps)) := by
  have hw := hc.written
  have hl : Loops S A f u .normal none (Inlined.written ps) [] (Inlined.html u ps) :=
    pieces_hold h ps hc.ok (by rw [List.append_nil, ← hw]; exact hc.quiet) (fun m hm => nomatch hm) ended_normal
  have hl' : ∀ st, Holds grammar S A f none st (.plus Place.normal.body) t (fun o _ => ∃ vs, o = some ([.slice vs], []) ∧ Raw u vs (Inlined.html u ps)) := by
    intro st
    have := hl st
    rw [List.append_nil, ← hw] at this
    refine (plus_of_star this ?_).mono ?_
    · rintro y ⟨_, vs, hv, _⟩
      exact hne (Prod.mk.inj (Option.some.inj hv)).2
    · rintro o y ⟨_, h⟩; exact h
  refine holds_rule (holds_act (P := fun o _ => ∃ vs, o = some ([.slice [.slice vs, .nil]], []) ∧ Raw u vs (Inlined.html u ps)) (holds_scope h.lasting (holds_seq (hl' _) ?_ ?_)) ?_ ?_)
  · rintro y ⟨vs, hv, _⟩; cases hv
  · rintro v r y ⟨vs, hv, hr⟩
    cases hv
    have hE : Gives grammar S A (.rule R.EOF) [] (fun o => o = some ([.nil], [])) := gives_rule (gives_notP_never (e := .any) (fun st s r h => yields_any_nil st s r h))
    refine hE.holds_any.mono ?_
    rintro o _ rfl
    exact ⟨vs, rfl, hr⟩
  · rintro y ⟨vs, hv, _⟩; cases hv
  · rintro s v r ⟨vs, hv, hr⟩
    cases hv
    obtain ⟨xs, hx, hd⟩ := inline_raw hr
    refine ⟨xs, ?_, hd⟩
    rw [h.obeys 371 s _ _ (.slice xs) (show code 371 [.slice [.slice vs, .nil]] _ = some (.slice xs) from hx)]

/-- The parser takes all of the text, and its elements stand for the markup. -/
theorem parsed (h : Inl S A E f) (hc : Content S.letter S.number t ps) (hne : t ≠ []) (s : σ) (hs : f s = none) :
    ∃ n s' es, runV grammar S A n (.rule R.NormalGroup) t s t = some (.ok s' [.slice es] []) ∧ Draws u es (Inlined.html u ps) := by
  obtain ⟨n, s', h'⟩ := C47.inline_accepted S h.progress s t hne R.NormalGroup (.inl rfl)
  obtain ⟨r, ⟨n, hr⟩, _⟩ := evalV_of_eval grammar S A (show Eval grammar S (.rule R.NormalGroup) t s t (.ok s' []) from ⟨n, h'⟩)
  obtain ⟨es, ho, hd⟩ := group_holds (u := u) h hc hne s r hs ⟨n, hr⟩
  cases r with
  | fail s1 => cases ho
  | ok s1 v u => cases ho; exact ⟨n, s1, es, hr, hd⟩

end

/-- The inline content is parsed with the rule `NormalGroup` (parser_ext.go:16-29), with the substitutions of paragraphs; the parser begins with nothing tracked. -/
def Spoken (letter number : Char → Bool) (W : World) : Prop :=
  ∀ (c : Settings) (t : Text), c.entry = .normalGroup → c.subs = Subs.normal → t ≠ [] → ∃ (σ : Type) (S : Sem σ) (A : Peg.Code σ) (s : σ) (f : σ → Option Char),
    Inl S A c.subs f ∧ f s = none ∧ S.letter = letter ∧ S.number = number ∧
    ∀ n s' es u, runV grammar S A n (.rule R.NormalGroup) t s t = some (.ok s' [.slice es] u) → W.parse c t = some es

variable {letter number : Char → Bool} {W : World} {ps : List Inlined.Piece} {t : Text} {u : View}

/-- A view, whichever it is. -/
def anyView : View := ⟨true, id, id, id⟩

theorem parse_spoken (hW : Spoken letter number W) {c : Settings} (hc : c.entry = .normalGroup) (hs : c.subs = Subs.normal) (ht : Content letter number t ps) (hne : t ≠ []) :
    ∃ es, W.parse c t = some es ∧ ∀ u, Draws u es (Inlined.html u ps) := by
  obtain ⟨σ, S, A, s, f, hI, hf, rfl, rfl, h⟩ := hW c t hc hs hne
  obtain ⟨n, s', es, hr, hd⟩ := parsed (u := anyView) hI ht hne s hf
  refine ⟨es, h n s' _ _ hr, fun u => ?_⟩
  obtain ⟨n2, s2, es2, hr2, hd2⟩ := parsed (u := u) hI ht hne s hf
  have := runV_one hr hr2
  injection this with _ h3 _
  injection h3 with h3 _
  injection h3 with h3
  rw [h3]
  exact hd2

/-! ### Elements without references and attributes -/

theorem restore_draws {es : List Any} {h : Text} (hd : Draws u es h) (store : List (Text × Any)) : Walk.restore store es = es := by
  induction hd with
  | nil => rfl
  | str _ _ ih => exact congrArg (_ :: ·) ih
  | special _ _ ih => exact congrArg (_ :: ·) ih
  | sign _ ih => exact congrArg (_ :: ·) ih
  | ref _ ih => exact congrArg (_ :: ·) ih
  | group _ _ _ i1 i2 =>
    show Any.group _ _ (Walk.restore store _) :: Walk.restore store _ = _
    rw [i1, i2]

theorem replace_draws {get : String → Option Any} {p : Option (List Sub)} {cs : AMap AttrRefs.CVal} {es : List Any} {h : Text} (hd : Draws u es h) :
    Walk.replaceLoop W get p cs es = .ok ⟨es, cs, false⟩ := by
  induction hd with
  | nil => rfl
  | str _ _ ih => simp [Walk.replaceLoop, Walk.replaceOne, ih]
  | special _ _ ih => simp [Walk.replaceLoop, Walk.replaceOne, ih]
  | sign _ ih => simp [Walk.replaceLoop, Walk.replaceOne, ih]
  | ref _ ih => simp [cross, Walk.replaceLoop, Walk.replaceOne, ih]
  | group _ _ _ i1 i2 =>
    have hf : ∀ es, Walk.finish W p false es = .ok es := fun es => by cases p <;> rfl
    simp [Walk.replaceLoop, Walk.replaceOne, i1, i2, hf, show Walk.replaceAttrs W get [] = .ok [] from rfl]

theorem inline_draws {o o' : List Walk.Opt} {subs : List Sub} {es : List Any} {h : Text} (hd : Draws u es h) : Walk.inlineAll W o o' subs es = .ok ⟨es, subs⟩ := by
  induction hd with
  | nil => rfl
  | str _ _ ih => simp [Walk.inlineAll, Walk.inlineOne, ih]
  | special _ _ ih => simp [Walk.inlineAll, Walk.inlineOne, ih]
  | sign _ ih => simp [Walk.inlineAll, Walk.inlineOne, ih]
  | ref _ ih => simp [cross, Walk.inlineAll, Walk.inlineOne, ih]
  | group _ _ _ i1 i2 => simp [Walk.inlineAll, Walk.inlineOne, i1, i2, show Walk.inlineAttrs W o o' subs [] = .ok ⟨[], subs⟩ from rfl]

open C59 (body body_ne serialize_kept settle_last)

/-- A paragraph with markup. -/
theorem substituted (hW : Spoken letter number W) (c : Walk.Ctx) (opts : List Walk.Opt) {l : Line} {ls : List Line} (h : l.Ok)
    (hp : Content letter number (body (l :: ls)) ps) :
    ∃ es, Walk.substParagraph W c opts [] (Paragraphs.kept (l :: ls)) = .ok (.paragraph [] es, c) ∧ ∀ u, Draws u es (Inlined.html u ps) := by
  have hne : (Paragraphs.kept (l :: ls)).isEmpty = false := by cases ls <;> rfl
  have hset := settle_last (c.opts ++ opts) Subs.normal
  obtain ⟨es, hparse, hd⟩ := parse_spoken hW hset.1 hset.2 hp (body_ne h)
  refine ⟨es, ?_, hd⟩
  have hwith : Walk.parseWith W (.slice (Paragraphs.kept (l :: ls))) Subs.normal (c.opts ++ (opts ++ [.entry .normalGroup])) = .ok es := by
    unfold Walk.parseWith
    simp only [Walk.serialize, serialize_kept]
    rw [if_neg (body_ne h), ← List.append_assoc c.opts, hparse]
    exact congrArg Except.ok (restore_draws (hd anyView) [])
  have hslice : Walk.substSlice W c Subs.normal (opts ++ [.entry .normalGroup]) (Paragraphs.kept (l :: ls)) = .ok (es, c.counters) := by
    unfold Walk.substSlice
    rw [hne, hwith]
    simp only [Bool.false_eq_true, if_false]
    rw [if_pos (by decide)]
    unfold Walk.replaceAndReparse
    rw [replace_draws (hd anyView)]
    rfl
  have hsubs : Walk.subsFor (Walk.paragraphOf (Walk.getTextD W [] "style")) [] = .ok Subs.normal := rfl
  unfold Walk.substParagraph
  have hattr : Walk.substAttrs W c opts [] = .ok [] := rfl
  rw [hattr]
  dsimp only
  rw [hsubs]
  dsimp only
  rw [hslice]
  dsimp only
  rw [inline_draws (hd anyView)]

end C65
end Verif
