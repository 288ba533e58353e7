import Verif.Props.BlockRefine
import Verif.Props.PlainParagraphs
import Verif.Props.Prose

/-!
# C62, continued — The substitutions in blocks without markup
-/
namespace Verif
namespace C62
open Actions Composed
open Walk (Any Kind World)
open C59 (Grammatical)
open Paragraphs (Line)
open Subs (Sub)

/-- The substitutions in a block that keeps its lines. -/
def subsOf (k : Verbatim) : List Sub := if k = .pass then [] else Subs.verbatim

mutual
/-- A block after the substitutions. -/
def content : Block → Any
  | .para l ls => .paragraph [] (PlainText.pieces true (Prose.text (l :: ls)))
  | .blank _ => .leaf 0
  | .verb k _ ls => .block (verbKind k) [] (PlainText.pieces (decide (k ≠ .pass)) (Prose.text ls))
  | .comp k _ bs => .block (compKind k) [] (contentAll bs)
/-- The content of a block. -/
def contentAll : List Block → List Any
  | [] => []
  | [.blank _] => []
  | b :: bs => content b :: contentAll bs
end

variable {W : World} {alnum : Char → Bool}

theorem special_subs (k : Verbatim) : decide (Sub.specialchars ∈ subsOf k) = decide (k ≠ .pass) := by cases k <;> rfl

theorem verb_subs (k : Verbatim) : Walk.subsFor (Walk.blockOf (verbKind k)) [] = .ok (subsOf k) := by cases k <;> rfl

theorem comp_subs (k : Compound) : Walk.subsFor (Walk.blockOf (compKind k)) [] = .ok Subs.normal := by cases k <;> rfl

theorem no_attributes (k : Verbatim) : Sub.attributes ∉ subsOf k := by cases k <;> decide

theorem raw_isEmpty (l : Text) (ls : List Text) : (rawLines (l :: ls)).isEmpty = false := by cases ls <;> rfl

theorem substituted_lines (hW : Grammatical W) (c : Walk.Ctx) (opts : List Walk.Opt) (k : Verbatim) {ls : List Line} (ht : ∀ l ∈ ls, Tidy l)
    (hp : PlainText.Plain (subsOf k) (Prose.text ls)) :
    Walk.substSlice W c (subsOf k) (opts ++ [.entry .normalGroup]) (rawLines (ls.map Line.full)) =
      .ok (PlainText.pieces (decide (k ≠ .pass)) (Prose.text ls), c.counters) := by
  have e : (ls.map Line.full).map trimRight = ls.map Line.text := by
    rw [List.map_map]
    exact List.map_congr_left fun l hl => bare_tidy (ht l hl).trail (ht l hl).last
  unfold Walk.substSlice
  cases ls with
  | nil => rfl
  | cons l ls =>
    rw [List.map_cons, raw_isEmpty, ← List.map_cons]
    rw [if_neg (by decide)]
    have hset := C59.settle_last (c.opts ++ opts) (subsOf k)
    have hwith : Walk.parseWith W (.slice (rawLines ((l :: ls).map Line.full))) (subsOf k) (c.opts ++ (opts ++ [.entry .normalGroup])) =
        .ok (PlainText.pieces (decide (k ≠ .pass)) (Prose.text (l :: ls))) := by
      unfold Walk.parseWith
      simp only [Walk.serialize, serialize_raw, e]
      by_cases h0 : joinLF ((l :: ls).map Line.text) = []
      · rw [if_pos h0, show Prose.text (l :: ls) = [] from h0]
        rfl
      · rw [if_neg h0, ← List.append_assoc c.opts]
        have hparse := C59.parse_plain hW hset.1 (t := Prose.text (l :: ls)) (hset.2.symm ▸ hp) h0
        rw [hset.2, special_subs] at hparse
        rw [show joinLF ((l :: ls).map Line.text) = Prose.text (l :: ls) from rfl, hparse]
        exact congrArg Except.ok (C59.restore_textual (C59.pieces_textual _ _) [])
    rw [hwith]
    dsimp only
    rw [if_neg (no_attributes k)]

theorem single {c : Walk.Ctx} {opts : List Walk.Opt} {e e' : Any} (h : Walk.substOne W c opts e = .ok (e', c)) : Walk.substAll W c opts [e] = .ok ([e'], c) := by
  rw [Walk.substAll, h]
  rfl

mutual
theorem substituted_block (hW : Grammatical W) (c : Walk.Ctx) : ∀ {b : Block} (opts : List Walk.Opt), b.Ok alnum → b.Plain →
    Walk.substOne W c opts (refined b) = .ok (content b, c)
  | .para l ls, opts, h, hp => by
    have := C59.substituted hW c opts h.1 (ls := ls) (by rw [C60.text_eq]; exact hp)
    show Walk.substParagraph W c opts [] (Paragraphs.kept (l :: ls)) = _
    rw [this]
    show Except.ok (Any.paragraph [] (PlainText.pieces true (C59.body (l :: ls))), c) = _
    rw [C60.text_eq]
    rfl
  | .blank w, _, _, _ => rfl
  | .verb k f ls, opts, h, hp => by
    show (match Walk.substAttrs W c opts [] with
      | .error b => Except.error b
      | .ok a => match Walk.subsFor (Walk.blockOf (verbKind k)) a with
        | .error b => Except.error b
        | .ok subs => if (verbKind k).compound = true then (_ : Except Walk.Bad (Any × Walk.Ctx)) else
          Walk.substVerbatim W c opts (verbKind k) a subs (rawLines (ls.map Line.full))) = _
    rw [show Walk.substAttrs W c opts [] = .ok [] from rfl]
    dsimp only
    rw [verb_subs]
    dsimp only
    rw [if_neg (by cases k <;> decide)]
    unfold Walk.substVerbatim
    rw [if_neg (by cases k <;> decide)]
    dsimp only
    rw [if_pos rfl, substituted_lines hW c opts k (fun l hl => (h.2.2.2 l hl).1) hp]
    rfl
  | .comp k f bs, opts, h, hp => by
    have ih := substituted_blocks hW c (opts ++ [.entry .normalGroup]) h.2.2.1 hp
    show (match Walk.substAttrs W c opts [] with
      | .error b => Except.error b
      | .ok a => match Walk.subsFor (Walk.blockOf (compKind k)) a with
        | .error b => Except.error b
        | .ok subs => if (compKind k).compound = true then match Walk.substAll W c (opts ++ [Walk.Opt.entry .normalGroup]) (refinedAll bs) with
            | .error b => Except.error b
            | .ok (es, c) => .ok (Any.block (compKind k) a es, c)
          else (_ : Except Walk.Bad (Any × Walk.Ctx))) = _
    rw [show Walk.substAttrs W c opts [] = .ok [] from rfl]
    dsimp only
    rw [comp_subs]
    dsimp only
    rw [if_pos (by cases k <;> rfl), ih]
    rfl
theorem substituted_blocks (hW : Grammatical W) (c : Walk.Ctx) : ∀ {bs : List Block} (opts : List Walk.Opt), Good alnum bs → Plains bs →
    Walk.substAll W c opts (refinedAll bs) = .ok (contentAll bs, c)
  | [], _, _, _ => rfl
  | [.blank _], _, _, _ => rfl
  | [.para l ls], opts, h, hp => by
    have := substituted_block hW c opts h.1 hp.1
    exact single this
  | [.verb k f ls], opts, h, hp => by
    have := substituted_block hW c opts h.1 hp.1
    exact single this
  | [.comp k f bs], opts, h, hp => by
    have := substituted_block hW c opts h.1 hp.1
    exact single this
  | b :: b' :: bs, opts, h, hp => by
    have h1 := substituted_block hW c opts h.1 hp.1
    have h2 := substituted_blocks hW c (bs := b' :: bs) opts h.2.2 hp.2
    have e1 : refinedAll (b :: b' :: bs) = refined b :: refinedAll (b' :: bs) := by cases b <;> rfl
    have e2 : contentAll (b :: b' :: bs) = content b :: contentAll (b' :: bs) := by cases b <;> rfl
    rw [e1, e2, Walk.substAll, h1]
    dsimp only
    rw [h2]
end

end C62
end Verif
