import Verif.Model.Footnotes
/-! C18: footnotes are numbered 1..n in order and references resolve. -/
namespace Verif.C18
open Verif.Foot

/-! ### Specification -/

/-- A footnote as written: its reference and its content. -/
structure Occ where
  ref : Text
  es : List FNode

/-- It has content (as opposed to only referring to another one). -/
def Occ.defines (o : Occ) : Bool := !o.es.isEmpty

/-- The number of the footnote: how many footnotes with content there are up to it. -/
def number (before : List Occ) : Nat := (before.filter Occ.defines).length + 1

/-- The first footnote with content and the given reference, given by its number. -/
def lookup (ref : Text) (before : List Occ) : Option Nat :=
  ((before.filter Occ.defines).findIdx? (fun o => decide (o.ref = ref))).map (· + 1)

/-- What replaces a footnote, given the ones before it. -/
def replacement (before : List Occ) (o : Occ) : FNode :=
  if o.defines then .fref (number before) o.ref false
  else match lookup o.ref before with
    | some n => .fref n o.ref true
    | none => .fref (-1) o.ref false

/-- What replaces each of the footnotes of a sequence. -/
def replacements : List Occ → List Occ → List FNode
  | _, [] => []
  | before, o :: os => replacement before o :: replacements (before ++ [o]) os

/-- The footnotes listed at the end of the document: the ones with content, numbered from 1. -/
def listed (os : List Occ) : List Note := (os.filter Occ.defines).mapIdx (fun i o => ⟨i + 1, o.ref, o.es⟩)

/-- Footnotes directly in a line of text. -/
def inlineOccs : List FNode → List Occ
  | [] => []
  | .note ref es :: rest => ⟨ref, es⟩ :: inlineOccs rest
  | _ :: rest => inlineOccs rest

mutual
/-- The footnotes in the text of an element, in document order: paragraphs, section titles, list elements. -/
def occs : FNode → List Occ
  | .para es => inlineOccs es
  | .sect t => inlineOccs t
  | .labeled t es => inlineOccs t ++ occsAll es
  | .item es => occsAll es
  | .items es => occsAll es
  | _ => []
def occsAll : List FNode → List Occ
  | [] => []
  | e :: es => occs e ++ occsAll es
end

/-- Replace the footnotes directly in a line of text by the given elements, one after the other; the remaining
elements are returned. -/
def fillInline : List FNode → List FNode → List FNode × List FNode
  | [], rs => ([], rs)
  | .note ref es :: rest, r :: rs => let q := fillInline rest rs; (r :: q.1, q.2)
  | .note ref es :: rest, [] => let q := fillInline rest []; (.note ref es :: q.1, q.2)
  | e :: rest, rs => let q := fillInline rest rs; (e :: q.1, q.2)

mutual
/-- Replace the footnotes of an element by the given elements, one after the other, and change nothing else. -/
def fill : FNode → List FNode → FNode × List FNode
  | .para es, rs => let q := fillInline es rs; (.para q.1, q.2)
  | .sect t, rs => let q := fillInline t rs; (.sect q.1, q.2)
  | .labeled t es, rs => let q := fillInline t rs; let p := fillAll es q.2; (.labeled q.1 p.1, p.2)
  | .item es, rs => let q := fillAll es rs; (.item q.1, q.2)
  | .items es, rs => let q := fillAll es rs; (.items q.1, q.2)
  | e, rs => (e, rs)
def fillAll : List FNode → List FNode → List FNode × List FNode
  | [], rs => ([], rs)
  | e :: es, rs => let q := fill e rs; let p := fillAll es q.2; (q.1 :: p.1, p.2)
end

/-! ### Sequences of footnotes -/

/-- The state after the given footnotes. -/
def after (os : List Occ) : Notes := ⟨(os.filter Occ.defines).length, listed os⟩

theorem listed_append (os : List Occ) (o : Occ) : listed (os ++ [o]) =
    if o.defines then listed os ++ [⟨(os.filter Occ.defines).length + 1, o.ref, o.es⟩] else listed os := by
  unfold listed
  rw [List.filter_append]
  by_cases h : o.defines = true
  · rw [if_pos h]
    simp [List.filter, h, List.mapIdx_append]
  · rw [if_neg h]
    simp [List.filter, h]

theorem indexOf_append (ref : Text) (n : Note) : ∀ ns : List Note, indexOf ref (ns ++ [n]) =
    match indexOf ref ns with | some i => some i | none => if n.ref = ref then some n.id else none
  | [] => by simp [indexOf]
  | m :: ns => by
    rw [List.cons_append]
    unfold indexOf
    split
    · rfl
    · exact indexOf_append ref n ns

theorem indexOf_mapIdx (ref : Text) : ∀ (os : List Occ) (k : Nat),
    indexOf ref (os.mapIdx (fun i o => ⟨k + i, o.ref, o.es⟩)) = (os.findIdx? (fun o => decide (o.ref = ref))).map (k + ·)
  | [], k => rfl
  | o :: os, k => by
    rw [List.mapIdx_cons, List.findIdx?_cons]
    unfold indexOf
    dsimp only
    by_cases h : o.ref = ref
    · simp [h]
    · have ih := indexOf_mapIdx ref os (k + 1)
      simp only [h, if_false, decide_false]
      have e : (fun (i : Nat) (o : Occ) => (⟨k + (i + 1), o.ref, o.es⟩ : Note)) = fun i o => ⟨k + 1 + i, o.ref, o.es⟩ := by
        funext i o; congr 1; omega
      rw [e, ih]
      cases os.findIdx? (fun o => decide (o.ref = ref)) with
      | none => rfl
      | some j => simp; omega

theorem indexOf_listed (ref : Text) (os : List Occ) : indexOf ref (listed os) = lookup ref os := by
  unfold listed lookup
  have h := indexOf_mapIdx ref (os.filter Occ.defines) 1
  have e : (fun (i : Nat) (o : Occ) => (⟨i + 1, o.ref, o.es⟩ : Note)) = fun i o => ⟨1 + i, o.ref, o.es⟩ := by
    funext i o; congr 1; omega
  rw [e, h]
  congr 1
  funext i; omega

theorem reference_spec (before : List Occ) (o : Occ) :
    (after before).reference o.ref o.es = (after (before ++ [o]), replacement before o) := by
  unfold Notes.reference replacement
  by_cases h : o.defines = true
  · have he : o.es.isEmpty = false := by simpa [Occ.defines] using h
    rw [if_pos he, if_pos h]
    unfold after
    rw [listed_append, if_pos h, List.filter_append]
    simp [List.filter, h, number]
  · have he : ¬ o.es.isEmpty = false := by simpa [Occ.defines] using h
    rw [if_neg he, if_neg h]
    have ha : after (before ++ [o]) = after before := by
      unfold after
      rw [listed_append, if_neg h, List.filter_append]
      simp [List.filter, h]
    rw [ha]
    show (match indexOf o.ref (listed before) with | some id => _ | none => _) = _
    rw [indexOf_listed]
    cases lookup o.ref before <;> rfl

theorem replacements_append : ∀ (before a b : List Occ), replacements before (a ++ b) = replacements before a ++ replacements (before ++ a) b
  | before, [], b => by simp [replacements]
  | before, o :: a, b => by
    have h := replacements_append (before ++ [o]) a b
    rw [List.append_assoc, List.singleton_append] at h
    show replacement before o :: replacements (before ++ [o]) (a ++ b) = replacement before o :: (replacements (before ++ [o]) a ++ _)
    rw [h]

/-! ### Trees -/

theorem subInline_spec : ∀ (es : List FNode) (before : List Occ) (rs : List FNode),
    (subInline (after before) es).1 = after (before ++ inlineOccs es) ∧
    fillInline es (replacements before (inlineOccs es) ++ rs) = ((subInline (after before) es).2, rs)
  | [], before, rs => by simp [subInline, inlineOccs, fillInline, replacements]
  | e :: rest, before, rs => by
    cases e with
    | note ref es =>
      have h := reference_spec before ⟨ref, es⟩
      have ih := subInline_spec rest (before ++ [⟨ref, es⟩]) rs
      have e1 : subInline (after before) (.note ref es :: rest) =
          ((subInline ((after before).reference ref es).1 rest).1, ((after before).reference ref es).2 :: (subInline ((after before).reference ref es).1 rest).2) := rfl
      dsimp only at h
      rw [e1, h]
      refine ⟨?_, ?_⟩
      · rw [ih.1]; simp [inlineOccs]
      · have e2 : inlineOccs (.note ref es :: rest) = ⟨ref, es⟩ :: inlineOccs rest := rfl
        rw [e2]
        show fillInline (.note ref es :: rest) (replacement before ⟨ref, es⟩ :: (replacements (before ++ [⟨ref, es⟩]) (inlineOccs rest) ++ rs)) = _
        unfold fillInline
        dsimp only
        rw [ih.2]
    | _ =>
      have ih := subInline_spec rest before rs
      refine ⟨ih.1, ?_⟩
      unfold fillInline
      dsimp only [inlineOccs]
      rw [ih.2]; rfl

mutual
theorem subst_spec : ∀ (e : FNode) (before : List Occ) (rs : List FNode),
    (subst (after before) e).1 = after (before ++ occs e) ∧
    fill e (replacements before (occs e) ++ rs) = ((subst (after before) e).2, rs)
  | .para es, before, rs => by
    have h := subInline_spec es before rs
    refine ⟨h.1, ?_⟩
    show (_, _) = _
    simp only [occs, h.2]; rfl
  | .sect es, before, rs => by
    have h := subInline_spec es before rs
    refine ⟨h.1, ?_⟩
    show (_, _) = _
    simp only [occs, h.2]; rfl
  | .labeled t es, before, rs => by
    have h1 := subInline_spec t before (replacements (before ++ inlineOccs t) (occsAll es) ++ rs)
    have h2 := substAll_spec es (before ++ inlineOccs t) rs
    have e1 : subst (after before) (.labeled t es) = ((substAll (subInline (after before) t).1 es).1,
      .labeled (subInline (after before) t).2 (substAll (subInline (after before) t).1 es).2) := rfl
    rw [e1, h1.1]
    refine ⟨?_, ?_⟩
    · rw [h2.1]; simp [occs]
    · have e2 : occs (.labeled t es) = inlineOccs t ++ occsAll es := rfl
      rw [e2, replacements_append, List.append_assoc]
      show (FNode.labeled (fillInline t _).1 (fillAll es (fillInline t _).2).1, (fillAll es (fillInline t _).2).2) = _
      rw [h1.2]
      dsimp only
      rw [h2.2]
  | .item es, before, rs => by
    have h := substAll_spec es before rs
    refine ⟨h.1, ?_⟩
    show (_, _) = _
    simp only [occs, h.2]; rfl
  | .items es, before, rs => by
    have h := substAll_spec es before rs
    refine ⟨h.1, ?_⟩
    show (_, _) = _
    simp only [occs, h.2]; rfl
  | .note ref es, before, rs => by simp [subst, occs, fill, replacements]
  | .fref i ref d, before, rs => by simp [subst, occs, fill, replacements]
  | .leaf k, before, rs => by simp [subst, occs, fill, replacements]
  | .inline es, before, rs => by simp [subst, occs, fill, replacements]
  | .cont e, before, rs => by simp [subst, occs, fill, replacements]
  | .block es, before, rs => by simp [subst, occs, fill, replacements]

theorem substAll_spec : ∀ (es : List FNode) (before : List Occ) (rs : List FNode),
    (substAll (after before) es).1 = after (before ++ occsAll es) ∧
    fillAll es (replacements before (occsAll es) ++ rs) = ((substAll (after before) es).2, rs)
  | [], before, rs => by simp [substAll, occsAll, fillAll, replacements]
  | e :: es, before, rs => by
    have h1 := subst_spec e before (replacements (before ++ occs e) (occsAll es) ++ rs)
    have h2 := substAll_spec es (before ++ occs e) rs
    have e1 : substAll (after before) (e :: es) = ((substAll (subst (after before) e).1 es).1,
      (subst (after before) e).2 :: (substAll (subst (after before) e).1 es).2) := rfl
    rw [e1, h1.1]
    refine ⟨?_, ?_⟩
    · rw [h2.1]; simp [occsAll]
    · have e2 : occsAll (e :: es) = occs e ++ occsAll es := rfl
      rw [e2, replacements_append, List.append_assoc]
      show ((fill e _).1 :: (fillAll es (fill e _).2).1, (fillAll es (fill e _).2).2) = _
      rw [h1.2]
      dsimp only
      rw [h2.2]
end

theorem collectAll_spec : ∀ (fs : List (List FNode)) (before : List Occ),
    (collectAll (after before) fs).1 = after (before ++ occsAll fs.flatten) ∧
    (collectAll (after before) fs).2.flatten = (substAll (after before) fs.flatten).2 ∧
    (collectAll (after before) fs).2.map List.length = fs.map List.length
  | [], before => by simp [collectAll, occsAll, substAll]
  | f :: fs, before => by
    have h1 := substAll_spec f before []
    have h2 := collectAll_spec fs (before ++ occsAll f)
    have e1 : collectAll (after before) (f :: fs) = ((collectAll (substAll (after before) f).1 fs).1,
      (substAll (after before) f).2 :: (collectAll (substAll (after before) f).1 fs).2) := rfl
    have happ : ∀ (a b : List FNode) (n : Notes), substAll n (a ++ b) = ((substAll (substAll n a).1 b).1, (substAll n a).2 ++ (substAll (substAll n a).1 b).2) := by
      intro a
      induction a with
      | nil => intro b n; rfl
      | cons x a ih =>
        intro b n
        show ((substAll (subst n x).1 (a ++ b)).1, (subst n x).2 :: (substAll (subst n x).1 (a ++ b)).2) = _
        rw [ih]
        rfl
    have hocc : ∀ (a b : List FNode), occsAll (a ++ b) = occsAll a ++ occsAll b := by
      intro a b
      induction a with
      | nil => rfl
      | cons x a ih =>
        show occs x ++ occsAll (a ++ b) = (occs x ++ occsAll a) ++ occsAll b
        rw [ih, List.append_assoc]
    have hlen : ∀ (a : List FNode) (n : Notes), (substAll n a).2.length = a.length := by
      intro a
      induction a with
      | nil => intro n; rfl
      | cons x a ih => intro n; unfold substAll; simp [ih]
    rw [e1, h1.1]
    refine ⟨?_, ?_, ?_⟩
    · rw [h2.1, List.flatten_cons, hocc, List.append_assoc]
    · rw [List.flatten_cons, List.flatten_cons, happ, h1.1, h2.2.1]
    · simp [h2.2.2, hlen]

/-! ### Theorems -/

/-- Collecting the footnotes of a document, fragment by fragment: the footnotes at the end of the document are
exactly the ones with content, in document order, numbered 1, 2, …, n; every footnote in the text is replaced by
what `replacement` says (its own number, or the number of the first footnote defined before with its reference, or the
invalid marker), and nothing else changes. -/
theorem footnotes_collected (fs : List (List FNode)) :
    (collectAll .empty fs).1.notes = listed (occsAll fs.flatten) ∧
    (collectAll .empty fs).2.flatten = (fillAll fs.flatten (replacements [] (occsAll fs.flatten))).1 ∧
    (fillAll fs.flatten (replacements [] (occsAll fs.flatten))).2 = [] ∧
    (collectAll .empty fs).2.map List.length = fs.map List.length := by
  have h0 : Notes.empty = after [] := rfl
  rw [h0]
  have h := collectAll_spec fs []
  have h2 := substAll_spec fs.flatten [] []
  rw [List.append_nil] at h2
  rw [h.1, h.2.1, h2.2]
  exact ⟨rfl, rfl, rfl, h.2.2⟩

/-- No number is given twice and there is no gap: the k-th listed footnote has number k+1. -/
theorem numbered_consecutively (fs : List (List FNode)) (k : Nat) (n : Note) (h : (collectAll .empty fs).1.notes[k]? = some n) : n.id = k + 1 := by
  rw [(footnotes_collected fs).1] at h
  unfold listed at h
  rw [List.getElem?_mapIdx] at h
  cases hx : ((occsAll fs.flatten).filter Occ.defines)[k]? with
  | none => rw [hx] at h; cases h
  | some o => rw [hx] at h; injection h with h; rw [← h]

/-- A reference to a footnote with number `n` (first or repeated) points to a listed footnote with that number and that
reference. -/
theorem references_resolve (before after : List Occ) (o : Occ) (n : Nat) (ref : Text) (d : Bool) (h : replacement before o = .fref n ref d) :
    ∃ x ∈ listed (before ++ o :: after), x.id = n ∧ x.ref = ref := by
  have hl : listed (before ++ o :: after) = (before.filter Occ.defines ++ ([o].filter Occ.defines ++ after.filter Occ.defines)).mapIdx (fun i o => ⟨i + 1, o.ref, o.es⟩) := by
    unfold listed; congr 1; rw [← List.filter_append, ← List.filter_append]; rfl
  rw [hl]
  unfold replacement at h
  split at h
  · rename_i hd
    injection h with h1 h2 h3
    refine ⟨⟨number before, o.ref, o.es⟩, ?_, by show number before = n; omega, h2⟩
    rw [List.mem_mapIdx]
    refine ⟨(before.filter Occ.defines).length, by simp [List.filter, hd], ?_⟩
    simp [List.filter, hd, number]
  · split at h
    · rename_i m hm
      injection h with h1 h2 h3
      unfold lookup at hm
      obtain ⟨i, hi, e⟩ := Option.map_eq_some_iff.1 hm
      have hi' := List.findIdx?_eq_some_iff_getElem.1 hi
      obtain ⟨hlt, hp, _⟩ := hi'
      refine ⟨⟨i + 1, (before.filter Occ.defines)[i].ref, (before.filter Occ.defines)[i].es⟩, ?_, by show i + 1 = n; omega, ?_⟩
      · rw [List.mem_mapIdx]
        refine ⟨i, by rw [List.length_append]; omega, ?_⟩
        simp [List.getElem_append_left, hlt]
      · rw [← h2]; simpa using hp
    · injection h with h1 h2 h3
      omega

/-- Footnotes occur only where they are collected. -/
def noNoteInline : List FNode → Bool
  | [] => true
  | .note _ _ :: rest => noNoteInline rest
  | e :: rest => renderable e && noNoteInline rest

mutual
def noHidden : FNode → Bool
  | .para es => noNoteInline es
  | .sect es => noNoteInline es
  | .labeled t es => noNoteInline t && noHiddenAll es
  | .item es => noHiddenAll es
  | .items es => noHiddenAll es
  | e => renderable e
def noHiddenAll : List FNode → Bool
  | [] => true
  | e :: es => noHidden e && noHiddenAll es
end

theorem reference_renderable (n : Notes) (ref : Text) (es : List FNode) : renderable (n.reference ref es).2 = true := by
  unfold Notes.reference
  split
  · rfl
  · split <;> rfl

theorem subInline_renderable : ∀ (es : List FNode) (n : Notes), noNoteInline es = true → renderableAll (subInline n es).2 = true
  | [], n, _ => rfl
  | e :: rest, n, h => by
    cases e with
    | note ref es =>
      have ih := subInline_renderable rest (n.reference ref es).1 h
      show (renderable (n.reference ref es).2 && renderableAll (subInline (n.reference ref es).1 rest).2) = true
      rw [ih, reference_renderable]; rfl
    | _ =>
      simp only [noNoteInline, Bool.and_eq_true] at h
      have ih := subInline_renderable rest n h.2
      show (renderable _ && renderableAll (subInline n rest).2) = true
      rw [ih, h.1]; rfl

mutual
theorem subst_renderable : ∀ (e : FNode) (n : Notes), noHidden e = true → renderable (subst n e).2 = true
  | .para es, n, h => subInline_renderable es n h
  | .sect es, n, h => subInline_renderable es n h
  | .labeled t es, n, h => by
    simp only [noHidden, Bool.and_eq_true] at h
    show (renderableAll _ && renderableAll _) = true
    rw [subInline_renderable t n h.1, substAll_renderable es _ h.2]; rfl
  | .item es, n, h => substAll_renderable es n h
  | .items es, n, h => substAll_renderable es n h
  | .note ref es, n, h => h
  | .fref i ref d, n, h => h
  | .leaf k, n, h => h
  | .inline es, n, h => h
  | .cont e, n, h => h
  | .block es, n, h => h
theorem substAll_renderable : ∀ (es : List FNode) (n : Notes), noHiddenAll es = true → renderableAll (substAll n es).2 = true
  | [], n, _ => rfl
  | e :: es, n, h => by
    simp only [noHiddenAll, Bool.and_eq_true] at h
    show (renderable _ && renderableAll _) = true
    rw [subst_renderable e n h.1, substAll_renderable es _ h.2]; rfl
end

/-- When footnotes only occur directly in paragraphs, section titles, terms and list elements, none is left for the renderer,
which would reject it. -/
theorem all_replaced (es : List FNode) (n : Notes) (h : noHiddenAll es = true) : renderableAll (substAll n es).2 = true :=
  substAll_renderable es n h

/-! ### Non-vacuity and findings -/

def txt (n : Nat) : List FNode := [.leaf n]
def doc1 : List (List FNode) :=
  [[.para [.leaf 0, .note [] (txt 1), .leaf 2]], [.items [.labeled [.note "r".toList (txt 3)] [.para [.note "r".toList []]]], .sect [.note "s".toList []]]]

example : (collectAll .empty doc1).1.notes.map Note.id = [1, 2] := by rfl
example : (collectAll .empty doc1).2 = [[.para [.leaf 0, .fref 1 [] false, .leaf 2]],
    [.items [.labeled [.fref 2 "r".toList false] [.para [.fref 2 "r".toList true]]], .sect [.fref (-1) "s".toList false]]] := by rfl
example : noHiddenAll doc1.flatten = true := by decide

/-- Finding: `DelimitedBlock`, `Table`, `ListContinuation` and the inline elements have no `SubstituteFootnotes`: a footnote in a
delimited block, in a list continuation or in quoted text is neither numbered nor listed and makes the rendering fail. -/
theorem finding_footnote_in_block_not_collected (n : Notes) (ref : Text) (es : List FNode) :
    (∀ e ∈ ([FNode.block [.para [.note ref es]], .items [.cont (.para [.note ref es])], .para [.inline [.note ref es]]] : List FNode),
      (subst n e).1.notes = n.notes ∧ renderable (subst n e).2 = false) := by
  intro e he
  simp only [List.mem_cons, List.not_mem_nil, or_false] at he
  rcases he with h | h | h <;> subst h <;> exact ⟨rfl, rfl⟩

/-- Finding (types.go:2185-2192): an empty anonymous footnote (`footnote:[]`) is taken for a reference to the first
anonymous footnote. -/
theorem finding_empty_footnote_refers_to_first_anonymous :
    (collectAll .empty [[.para [.note [] (txt 1), .note [] (txt 2), .note [] []]]]).2 =
      [[.para [.fref 1 [] false, .fref 2 [] false, .fref 1 [] true]]] := by rfl

end Verif.C18
