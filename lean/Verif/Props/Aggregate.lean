import Verif.Proofs.Forest
import Mathlib.Data.List.Induction
/-! C12, C13, C17: the document tree. -/
namespace Verif.C12
open Forest

/-! ### Specification -/

/-- The parent of an element in the document, looking only at the elements before it in the source: for a
section, the nearest preceding section with a strictly smaller level; for any other element, the nearest
preceding section; the document itself (`none`) if there is none. -/
def expectedParent (pre : List Elem) (e : Elem) : Option Elem :=
  match e with
  | .sect s => pre.reverse.find? (fun x => match x with | .sect s' => decide (s'.level < s.level) | _ => false)
  | _ => pre.reverse.find? (fun x => match x with | .sect _ => true | _ => false)

/-- Every element with its expected parent; `pre` is what comes before. -/
def withExpectedParents : List Elem → List Elem → List (Elem × Option Elem)
  | _, [] => []
  | pre, e :: es => (e, expectedParent pre e) :: withExpectedParents (pre ++ [e]) es

/-! ### Proofs -/

theorem withExpectedParents_snoc : ∀ (es pre : List Elem) (e : Elem),
    withExpectedParents pre (es ++ [e]) = withExpectedParents pre es ++ [(e, expectedParent (pre ++ es) e)]
  | [], pre, e => by simp [withExpectedParents]
  | x :: es, pre, e => by simp [withExpectedParents, withExpectedParents_snoc es]

/-- Level of a section (anything for other elements). -/
def lev (e : Elem) : Int := e.level?.getD 0

def isSect (e : Elem) : Bool := match e with | .sect _ => true | _ => false

theorem takeWhile_takeWhile_lt (key : Elem → Int) {l m : Int} (h : l ≤ m) : ∀ os : List Elem,
    (os.takeWhile (fun x => decide (key x < m))).takeWhile (fun x => decide (key x < l)) = os.takeWhile (fun x => decide (key x < l)) := by
  intro os
  induction os with
  | nil => rfl
  | cons o os ih =>
    by_cases h1 : key o < l
    · have : key o < m := by omega
      simp [List.takeWhile_cons, h1, this, ih]
    · by_cases h2 : key o < m <;> simp [List.takeWhile_cons, h1, h2]

structure Inv (pre : List Elem) (a : Agg) (os : List Elem) : Prop where
  pref : os <+: spine a.tree
  sects : ∀ o ∈ os, isSect o = true
  levels : a.opened = os.map lev
  sorted : os.Pairwise (fun a b => lev a < lev b)
  near : ∀ l : Int, os.reverse.find? (fun x => decide (lev x < l)) =
    pre.reverse.find? (fun x => match x with | .sect s' => decide (s'.level < l) | _ => false)
  last : os.getLast? = pre.reverse.find? (fun x => match x with | .sect _ => true | _ => false)
  out : preorder none a.tree = withExpectedParents [] pre

theorem indexOfParent_take (l : Int) : ∀ ls : List Int,
    trimToParent l ls = ls.takeWhile (fun x => decide (x < l)) := by
  intro ls
  unfold trimToParent
  induction ls with
  | nil => rfl
  | cons x ls ih =>
    by_cases h : x ≥ l
    · have : ¬ x < l := by omega
      simp [indexOfParent, h, List.takeWhile_cons, this]
    · have h' : x < l := by omega
      simp only [indexOfParent, h, if_false, List.takeWhile_cons, h', decide_true, if_true]
      rw [← ih]
      cases indexOfParent l ls <;> simp

theorem getLast?_eq_parentAt (os : List Elem) (t : Forest Elem) (h : os <+: spine t) : parentAt none t os.length = os.getLast? := by
  obtain ⟨r, hr⟩ := h
  cases os using List.reverseRecOn with
  | nil => rfl
  | append_singleton os o =>
    simp only [List.length_append, List.length_singleton, parentAt, ← hr]
    simp

theorem append_inv {pre : List Elem} {a : Agg} {os : List Elem} (h : Inv pre a os) (e : Elem) :
    ∃ os', Inv (pre ++ [e]) (a.append e) os' := by
  by_cases hs : isSect e = true
  · cases e with
    | sect s =>
      have hst := indexOfParent_take s.level a.opened
      refine ⟨os.takeWhile (fun x => decide (lev x < s.level)) ++ [.sect s], ?_⟩
      have htw : (os.takeWhile (fun x => decide (lev x < s.level))).map lev = a.opened.takeWhile (fun x => decide (x < s.level)) := by
        rw [h.levels, List.takeWhile_map]; rfl
      have hpre : os.takeWhile (fun x => decide (lev x < s.level)) <+: spine a.tree :=
        (List.takeWhile_prefix _).trans h.pref
      have hlen : (a.opened.takeWhile (fun x => decide (x < s.level))).length = (os.takeWhile (fun x => decide (lev x < s.level))).length := by
        rw [← htw, List.length_map]
      have happ : a.append (.sect s) = ⟨a.tree.insertAt (os.takeWhile (fun x => decide (lev x < s.level))).length (.sect s),
          (os.takeWhile (fun x => decide (lev x < s.level))).map lev ++ [s.level]⟩ := by
        unfold Agg.append
        simp only
        rw [hst, hlen, htw]
      rw [happ]
      have hbelow : ∀ x ∈ os.takeWhile (fun x => decide (lev x < s.level)), lev x < s.level := by
        intro x hx
        have := List.all_takeWhile (p := fun x => decide (lev x < s.level)) (l := os)
        rw [List.all_eq_true] at this
        simpa using this x hx
      have hle : (os.takeWhile (fun x => decide (lev x < s.level))).length ≤ (spine a.tree).length := hpre.length_le
      refine ⟨?_, ?_, ?_, ?_, ?_, ?_, ?_⟩
      · show _ <+: spine (a.tree.insertAt _ _)
        rw [spine_insertAt _ _ _ hle]
        have : (spine a.tree).take (os.takeWhile (fun x => decide (lev x < s.level))).length = os.takeWhile (fun x => decide (lev x < s.level)) :=
          (List.prefix_iff_eq_take.1 hpre).symm
        rw [this]; exact List.prefix_rfl
      · intro o ho
        rcases List.mem_append.1 ho with ho | ho
        · exact h.sects o ((List.takeWhile_sublist _).mem ho)
        · simp only [List.mem_singleton] at ho; subst ho; rfl
      · simp [lev, Elem.level?]
      · rw [List.pairwise_append]
        refine ⟨h.sorted.sublist (List.takeWhile_sublist _), List.pairwise_singleton _ _, ?_⟩
        intro x hx y hy
        simp only [List.mem_singleton] at hy; subst hy
        exact hbelow x hx
      · intro l
        rw [List.reverse_append, List.reverse_append]
        simp only [List.reverse_cons, List.reverse_nil, List.nil_append, List.singleton_append, List.find?_cons]
        have e1 : lev (.sect s) = s.level := rfl
        rw [e1]
        by_cases hl : s.level < l
        · simp [hl]
        · simp only [hl, decide_false]
          have key : (os.takeWhile (fun x => decide (lev x < s.level))).takeWhile (fun x => decide (lev x < l)) = os.takeWhile (fun x => decide (lev x < l)) := by
            exact takeWhile_takeWhile_lt lev (by omega) os
          rw [← h.near l, ← sorted_find lev l os h.sorted, ← sorted_find lev l _ (h.sorted.sublist (List.takeWhile_sublist _)), key]
      · simp
      · show preorder none (a.tree.insertAt _ _) = _
        rw [preorder_insertAt _ _ _ _ hle, h.out, withExpectedParents_snoc, getLast?_eq_parentAt _ _ hpre, List.nil_append]
        congr 3
        rw [sorted_find lev s.level os h.sorted, h.near]; rfl
    | _ => simp [isSect] at hs
  · have hs : isSect e = false := by simpa using hs
    refine ⟨os, ?_⟩
    have happ : a.append e = ⟨a.tree.insertAt os.length e, a.opened⟩ := by
      unfold Agg.append
      cases e <;> first | (simp [isSect] at hs; done) | (simp only [h.levels, List.length_map])
    rw [happ]
    have hle : os.length ≤ (spine a.tree).length := h.pref.length_le
    have hnear : ∀ q : Elem → Bool, (∀ x, isSect x = false → q x = false) → (pre ++ [e]).reverse.find? q = pre.reverse.find? q := by
      intro q hq
      rw [List.reverse_append]
      simp only [List.reverse_cons, List.reverse_nil, List.nil_append, List.singleton_append, List.find?_cons, hq e hs]
    refine ⟨?_, h.sects, h.levels, h.sorted, ?_, ?_, ?_⟩
    · show os <+: spine (a.tree.insertAt _ _)
      rw [spine_insertAt _ _ _ hle, ← List.prefix_iff_eq_take.1 h.pref]
      exact List.prefix_append _ _
    · intro l
      rw [h.near l, hnear]
      intro x hx; cases x <;> simp_all [isSect]
    · rw [h.last, hnear]
      intro x hx; cases x <;> simp_all [isSect]
    · show preorder none (a.tree.insertAt _ _) = _
      rw [preorder_insertAt _ _ _ _ hle, h.out, withExpectedParents_snoc, getLast?_eq_parentAt _ _ h.pref, List.nil_append, h.last]
      congr 3
      cases e <;> first | (simp [isSect] at hs; done) | rfl

theorem foldl_inv : ∀ (es pre : List Elem) (a : Agg) (os : List Elem), Inv pre a os →
    ∃ os', Inv (pre ++ es) (es.foldl Agg.append a) os'
  | [], pre, a, os, h => ⟨os, by simpa using h⟩
  | e :: es, pre, a, os, h => by
    obtain ⟨os', h'⟩ := append_inv h e
    obtain ⟨os'', h''⟩ := foldl_inv es (pre ++ [e]) (a.append e) os' h'
    exact ⟨os'', by simpa using h''⟩

theorem init_inv : Inv [] Agg.init [] :=
  ⟨List.nil_prefix, by simp, rfl, List.Pairwise.nil, fun _ => rfl, rfl, rfl⟩

/-! ### The properties -/

/-- C12 and C13 in one: in document order, the tree holds exactly the elements of the source, each below
the parent the specification assigns to it. -/
theorem document_tree (es : List Elem) : preorder none (aggregateTree es) = withExpectedParents [] es := by
  obtain ⟨os, h⟩ := foldl_inv es [] Agg.init [] init_inv
  unfold aggregateTree
  simpa using h.out

/-- C12: nothing is lost, duplicated or reordered. -/
theorem content_preserved (es : List Elem) : flatten (aggregateTree es) = es := by
  rw [← preorder_fst _ none, document_tree]
  have : ∀ (es pre : List Elem), (withExpectedParents pre es).map Prod.fst = es := by
    intro es
    induction es with
    | nil => intro pre; rfl
    | cons e es ih => intro pre; simp [withExpectedParents, ih]
  exact this es []

theorem mem_withExpectedParents : ∀ (es pre : List Elem) (e : Elem) (p : Option Elem), (e, p) ∈ withExpectedParents pre es →
    ∃ pre', p = expectedParent pre' e
  | x :: es, pre, e, p, h => by
    simp only [withExpectedParents, List.mem_cons] at h
    rcases h with h | h
    · injection h with h1 h2; subst h1; exact ⟨pre, h2⟩
    · exact mem_withExpectedParents es _ e p h

/-- C13: a section directly inside another one has a strictly greater level; and only sections contain
elements. -/
theorem child_level_greater (es : List Elem) (e p : Elem) (h : (e, some p) ∈ preorder none (aggregateTree es)) :
    ∃ sp, p = .sect sp ∧ ∀ s, e = .sect s → sp.level < s.level := by
  rw [document_tree] at h
  obtain ⟨pre, hp⟩ := mem_withExpectedParents _ _ _ _ h
  cases e with
  | sect s =>
    have := List.find?_some hp.symm
    cases p with
    | sect sp => exact ⟨sp, rfl, fun s' e => by injection e with e; subst e; simpa using this⟩
    | _ => simp at this
  | _ =>
    have := List.find?_some hp.symm
    cases p with
    | sect sp => exact ⟨sp, rfl, fun s' e => by cases e⟩
    | _ => simp at this

def exSec (l : Int) (n : Nat) : Elem := .sect ⟨l, [.other n], true, []⟩

/-- Levels with a gap: 1, 3, then 2 — all below the section of level 1. -/
example : preorder none (aggregateTree [.block 0 [], exSec 1 1, .block 1 [], exSec 3 2, .block 2 [], exSec 2 3, exSec 1 4]) =
    [(.block 0 [], none), (exSec 1 1, none), (.block 1 [], some (exSec 1 1)), (exSec 3 2, some (exSec 1 1)),
     (.block 2 [], some (exSec 3 2)), (exSec 2 3, some (exSec 1 1)), (exSec 1 4, none)] := by
  rw [document_tree]; rfl

end Verif.C12

namespace Verif.C17

/-! ### Specification -/

/-- Undo the preamble. -/
def expand : List Top → List (Option Elem)
  | [] => []
  | .elem e :: ts => some e :: expand ts
  | .preamble es :: ts => es.map some ++ expand ts
  | .none :: ts => none :: expand ts

def isSect : Elem → Bool
  | .sect _ => true
  | _ => false

/-- Elements that make a preamble worth having. -/
def isContent : Elem → Bool
  | .blank => false
  | .decl _ _ => false
  | .reset _ => false
  | _ => true

/-- Neither header nor front matter. -/
def isBody : Elem → Bool
  | .header _ _ => false
  | .front _ => false
  | _ => true

/-! ### Proofs -/

theorem hasContent_iff (es : List Elem) : hasContent es = true ↔ ∃ e ∈ es, isContent e = true := by
  induction es with
  | nil => simp [hasContent]
  | cons e es ih => cases e <;> simp [hasContent, isContent, ih]

theorem preambleElems_body : ∀ (es : List Elem), (∀ e ∈ es, isBody e = true) →
    preambleElems es = if es.any isSect then some (es.takeWhile (fun e => !isSect e)) else none := by
  intro es
  induction es with
  | nil => intro _; rfl
  | cons e es ih =>
    intro h
    have ih := ih (fun e he => h e (List.mem_cons_of_mem _ he))
    have he := h e List.mem_cons_self
    cases e with
    | header _ _ => simp [isBody] at he
    | front _ => simp [isBody] at he
    | sect s => simp [preambleElems, isSect]
    | _ =>
      simp only [preambleElems, ih]
      by_cases hs : es.any isSect = true <;> simp [hs, isSect, List.takeWhile_cons]

/-- Is there a preamble for these elements following the header? -/
def WantsPreamble (titled : Bool) (rest : List Elem) : Prop :=
  titled = true ∧ (∃ e ∈ rest, isSect e = true) ∧ ∃ e ∈ rest.takeWhile (fun e => !isSect e), isContent e = true

theorem copyAt_exact (a b : List Top) (n : Nat) (hn : n = b.length) :
    copyAt (a ++ List.replicate n Top.none) a.length b = a ++ b := by
  subst hn
  simp [copyAt]

theorem takeWhile_length_le_any {rest : List Elem} (h : ∃ e ∈ rest, isSect e = true) :
    (rest.takeWhile (fun e => !isSect e)).length < rest.length := by
  induction rest with
  | nil => obtain ⟨e, he, _⟩ := h; cases he
  | cons x rest ih =>
    simp only [List.takeWhile_cons]
    split
    · rename_i hx
      have : ∃ e ∈ rest, isSect e = true := by
        obtain ⟨e, he, hs⟩ := h
        rcases List.mem_cons.1 he with rfl | he
        · simp [hs] at hx
        · exact ⟨e, he, hs⟩
      have := ih this
      simp; omega
    · simp

theorem drop_takeWhile_length (p : Elem → Bool) (rest : List Elem) : rest.drop (rest.takeWhile p).length = rest.dropWhile p := by
  induction rest with
  | nil => rfl
  | cons x rest ih => simp only [List.takeWhile_cons, List.dropWhile_cons]; split <;> simp_all

open Classical in
/-- The result for a document `front? header rest`. -/
theorem insertPreamble_eq (fm : Option (AMap Val)) (titled : Bool) (hs : List HElem) (rest : List Elem) (hb : ∀ e ∈ rest, isBody e = true) :
    insertPreamble ((fm.map Elem.front).toList ++ Elem.header titled hs :: rest) =
    if WantsPreamble titled rest then
      ((fm.map Elem.front).toList ++ [Elem.header titled hs]).map Top.elem ++
        .preamble (rest.takeWhile (fun e => !isSect e)) :: (rest.dropWhile (fun e => !isSect e)).map Top.elem
    else ((fm.map Elem.front).toList ++ Elem.header titled hs :: rest).map Top.elem := by
  have hpe := preambleElems_body rest hb
  have hhead : docHeader ((fm.map Elem.front).toList ++ Elem.header titled hs :: rest) = some (titled, (fm.map Elem.front).toList.length) := by
    cases fm <;> rfl
  have hpre : preambleElems ((fm.map Elem.front).toList ++ Elem.header titled hs :: rest) = preambleElems rest := by
    cases fm <;> rfl
  have hnew : newPreamble ((fm.map Elem.front).toList ++ Elem.header titled hs :: rest) =
      if titled = true ∧ rest.any isSect = true then some (rest.takeWhile (fun e => !isSect e)) else none := by
    unfold newPreamble
    rw [hhead, hpre, hpe]
    cases titled <;> simp
  unfold insertPreamble
  rw [hnew]
  by_cases h1 : titled = true ∧ rest.any isSect = true
  · rw [if_pos h1]
    by_cases h2 : hasContent (rest.takeWhile (fun e => !isSect e)) = true
    · have hw : WantsPreamble titled rest := ⟨h1.1, by simpa using h1.2, (hasContent_iff _).1 h2⟩
      rw [if_pos hw]
      simp only [h2, Bool.not_true, Bool.false_eq_true, if_false]
      rw [hhead]
      have hlt := takeWhile_length_le_any hw.2.1
      have hdl : (rest.dropWhile (fun e => !isSect e)).length = rest.length - (rest.takeWhile (fun e => !isSect e)).length := by
        have := congrArg List.length (List.takeWhile_append_dropWhile (p := fun e => !isSect e) (l := rest))
        simp only [List.length_append] at this; omega
      cases fm with
      | none =>
        simp only [Option.map_none, Option.toList_none, List.nil_append, List.length_cons, List.length_nil, List.getElem?_cons_zero,
          Option.map_some, Option.getD_some, List.map_cons, List.map_nil, List.cons_append]
        have e1 : rest.length + 1 - (rest.takeWhile (fun e => !isSect e)).length + 1 =
            (rest.dropWhile (fun e => !isSect e)).length + 1 + 1 := by rw [hdl]; omega
        rw [e1]
        have e2 : List.drop (1 + (rest.takeWhile (fun e => !isSect e)).length + 0) (Elem.header titled hs :: rest) = rest.dropWhile (fun e => !isSect e) := by
          have : 1 + (rest.takeWhile (fun e => !isSect e)).length + 0 = (rest.takeWhile (fun e => !isSect e)).length + 1 := by omega
          rw [this, List.drop_succ_cons, drop_takeWhile_length]
        rw [e2]
        have e3 := copyAt_exact [Top.elem (.header titled hs), .preamble (rest.takeWhile (fun e => !isSect e))]
          ((rest.dropWhile (fun e => !isSect e)).map Top.elem) (rest.dropWhile (fun e => !isSect e)).length (by simp)
        exact e3
      | some a =>
        simp only [Option.map_some, Option.toList_some, List.cons_append, List.nil_append, List.length_cons, List.length_nil, List.getElem?_cons_zero,
          List.getElem?_cons_succ, Option.getD_some, List.map_cons, List.map_nil, List.cons_append]
        have e1 : rest.length + 1 + 1 - (rest.takeWhile (fun e => !isSect e)).length + 1 =
            (rest.dropWhile (fun e => !isSect e)).length + 1 + 1 + 1 := by rw [hdl]; omega
        rw [e1]
        have e2 : List.drop (1 + (rest.takeWhile (fun e => !isSect e)).length + (0 + 1)) (Elem.front a :: Elem.header titled hs :: rest) = rest.dropWhile (fun e => !isSect e) := by
          have : 1 + (rest.takeWhile (fun e => !isSect e)).length + (0 + 1) = (rest.takeWhile (fun e => !isSect e)).length + 1 + 1 := by omega
          rw [this, List.drop_succ_cons, List.drop_succ_cons, drop_takeWhile_length]
        rw [e2]
        have e3 := copyAt_exact [Top.elem (.front a), Top.elem (.header titled hs), .preamble (rest.takeWhile (fun e => !isSect e))]
          ((rest.dropWhile (fun e => !isSect e)).map Top.elem) (rest.dropWhile (fun e => !isSect e)).length (by simp)
        exact e3
    · have hw : ¬ WantsPreamble titled rest := fun hw => h2 ((hasContent_iff _).2 hw.2.2)
      rw [if_neg hw]
      simp [h2]
  · have hw : ¬ WantsPreamble titled rest := fun hw => h1 ⟨hw.1, by simpa using hw.2.1⟩
    rw [if_neg h1, if_neg hw]

/-! ### The property -/

/-- A document consisting of optional front matter, a header and a body: the preamble is introduced
exactly when the header has a title, the body has a section and there is content before it; it then holds
exactly the elements between the header and the first section, and everything else stays in place. -/
theorem preamble_inserted_iff (fm : Option (AMap Val)) (titled : Bool) (hs : List HElem) (rest : List Elem)
    (hb : ∀ e ∈ rest, isBody e = true) :
    (WantsPreamble titled rest → insertPreamble ((fm.map Elem.front).toList ++ Elem.header titled hs :: rest) =
      ((fm.map Elem.front).toList ++ [Elem.header titled hs]).map Top.elem ++
        .preamble (rest.takeWhile (fun e => !isSect e)) :: (rest.dropWhile (fun e => !isSect e)).map Top.elem) ∧
    (¬ WantsPreamble titled rest → insertPreamble ((fm.map Elem.front).toList ++ Elem.header titled hs :: rest) =
      ((fm.map Elem.front).toList ++ Elem.header titled hs :: rest).map Top.elem) := by
  rw [insertPreamble_eq fm titled hs rest hb]
  exact ⟨fun h => if_pos h, fun h => if_neg h⟩

theorem expand_append (a b : List Top) : expand (a ++ b) = expand a ++ expand b := by
  induction a with
  | nil => rfl
  | cons t a ih => cases t <;> simp [expand, ih]

theorem expand_elems (es : List Elem) : expand (es.map Top.elem) = es.map some := by
  induction es with
  | nil => rfl
  | cons e es ih => simp [expand, ih]

/-- Taking the preamble apart again gives back the original elements, in order, with no hole. -/
theorem content_preserved (fm : Option (AMap Val)) (titled : Bool) (hs : List HElem) (rest : List Elem)
    (hb : ∀ e ∈ rest, isBody e = true) :
    expand (insertPreamble ((fm.map Elem.front).toList ++ Elem.header titled hs :: rest)) =
      ((fm.map Elem.front).toList ++ Elem.header titled hs :: rest).map some := by
  rw [insertPreamble_eq fm titled hs rest hb]
  split
  · rw [expand_append, expand_elems, expand, expand_elems, List.map_append, List.append_assoc, ← List.map_append,
      List.takeWhile_append_dropWhile]
    simp
  · rw [expand_elems]

/-- A document without header (nothing but front matter before the first other element) is left alone. -/
theorem no_header_no_preamble (es : List Elem) (h : docHeader es = none) : insertPreamble es = es.map Top.elem := by
  unfold insertPreamble newPreamble
  rw [h]

/-- FINDING: an attribute declared before the title hides the header (types.go:111-126 only skips front
matter and blank lines), so that no preamble is introduced although the document has a header, content
and a section. -/
theorem finding_declaration_before_title_hides_header :
    insertPreamble [.decl "x" (.str []), .header true [], .block 0 [], .sect ⟨1, [], true, []⟩] =
      [.elem (.decl "x" (.str [])), .elem (.header true []), .elem (.block 0 []), .elem (.sect ⟨1, [], true, []⟩)] := rfl

/-- FINDING (unreachable through the pipeline, which removes blank lines first): with a blank line before
the header the index arithmetic leaves a hole and loses the rest of the document. -/
theorem finding_blank_line_before_header_loses_content :
    insertPreamble [.blank, .header true [], .block 0 [], .sect ⟨1, [], true, []⟩] =
      [.none, .elem (.header true []), .preamble [.blank, .block 0 []]] := rfl

example : WantsPreamble true [.decl "a" (.str []), .block 0 [], .sect ⟨1, [], true, []⟩, .block 1 []] ∧
    ∀ e ∈ ([.decl "a" (.str []), .block 0 [], .sect ⟨1, [], true, []⟩, .block 1 []] : List Elem), isBody e = true := by
  refine ⟨⟨rfl, ⟨.sect ⟨1, [], true, []⟩, by simp, rfl⟩, ⟨.block 0 [], by simp [List.takeWhile_cons, isSect], rfl⟩⟩, ?_⟩
  intro e he
  simp at he
  rcases he with rfl | rfl | rfl | rfl <;> rfl

end Verif.C17
