import Verif.Model.Numbers
import Verif.Props.Ids
import Verif.Props.Aggregate
/-! C29: section numbers are hierarchical and consecutive. -/
namespace Verif.C29
open Numbers Forest

/-! ### Specification -/

/-- The top-level trees of a forest. -/
def trees {α : Type} : Forest α → List (α × Forest α)
  | .nil => []
  | .cons a k r => (a, k) :: trees r

/-- The places where numbering is switched on (`:sectnums:`, `:numbered:`) or off (`:!sectnums:`, `:!numbered:`), in document
order; sections are entered. -/
def switches : Forest Top → List Bool
  | .nil => []
  | .cons (.elem (.decl name _)) _ r => (if name = "sectnums" ∨ name = "numbered" then [true] else []) ++ switches r
  | .cons (.elem (.reset name)) _ r => (if name = "sectnums" ∨ name = "numbered" then [false] else []) ++ switches r
  | .cons (.elem (.sect _)) k r => switches k ++ switches r
  | .cons _ _ r => switches r

/-- Switches in a header. -/
def headerSwitches : List HElem → List Bool
  | [] => []
  | .decl name _ :: hs => (if name = "sectnums" ∨ name = "numbered" then [true] else []) ++ headerSwitches hs
  | .reset name :: hs => (if name = "sectnums" ∨ name = "numbered" then [false] else []) ++ headerSwitches hs
  | .other _ :: hs => headerSwitches hs

/-- The last switch decides. -/
def lastSwitch (on : Bool) (ss : List Bool) : Bool := ss.getLast?.getD on

/-- Switches in some trees of a list of siblings. -/
def switchesIn : List (Top × Forest Top) → List Bool
  | [] => []
  | (a, k) :: ts => switches (.cons a k .nil) ++ switchesIn ts

/-- Identifiers of the sections, in document order. -/
def ids : Forest Top → List Text
  | .nil => []
  | .cons (.elem (.sect s)) k r => s.id :: (ids k ++ ids r)
  | .cons _ _ r => ids r

/-- The number of sections that are numbered among these siblings, when numbering is `on` before the first. -/
def numbered (on : Bool) : List (Top × Forest Top) → Nat
  | [] => 0
  | (.elem (.sect s), k) :: ts => (if on then 1 else 0) + numbered (lastSwitch on (switchesIn [(.elem (.sect s), k)])) ts
  | t :: ts => numbered (lastSwitch on (switchesIn [t])) ts

/-- `Siblings doc on0 f on parent`: `f` are the elements of the section `parent` of the document (of the document itself if
`none`), and numbering is `on` before the first of them. -/
inductive Siblings (doc : Forest Top) (on0 : Bool) : Forest Top → Bool → Option Sec → Prop
  | top : Siblings doc on0 doc on0 none
  | kids {f : Forest Top} {on : Bool} {parent : Option Sec} {s : Sec} {k : Forest Top} {a b : List (Top × Forest Top)} :
      Siblings doc on0 f on parent → trees f = a ++ (.elem (.sect s), k) :: b →
      Siblings doc on0 k (lastSwitch on (switchesIn a)) (some s)

/-- The number of a section that is the `k`-th numbered one below `parent`: `k` at the top, `p.k` below a section numbered `p`
(`.k` below a section without number). -/
def expectedNumber (numbers : NMap) : Option Sec → Nat → Text
  | none, k => itoa k
  | some parent, k => (numbers.get parent.id).getD [] ++ ".".toList ++ itoa k

/-- Is numbering on when the body of the document begins? -/
def onAtStart (doc : Forest Top) : Bool :=
  match headerElems doc with
  | some hs => lastSwitch false (headerSwitches hs)
  | none => false

/-- How many of these siblings are sections. -/
def sectionCount : List (Top × Forest Top) → Nat
  | [] => 0
  | (.elem (.sect _), _) :: ts => 1 + sectionCount ts
  | _ :: ts => sectionCount ts

/-- `At f path s`: `s` is a section reached by taking, in each list of siblings, the section at the given position (from 1). -/
inductive At : Forest Top → List Nat → Sec → Prop
  | here {f : Forest Top} {s : Sec} {k : Forest Top} {a b : List (Top × Forest Top)} :
      trees f = a ++ (.elem (.sect s), k) :: b → At f [1 + sectionCount a] s
  | inside {f : Forest Top} {s s' : Sec} {k : Forest Top} {a b : List (Top × Forest Top)} {path : List Nat} :
      trees f = a ++ (.elem (.sect s), k) :: b → At k path s' → At f ((1 + sectionCount a) :: path) s'

/-! ### Proofs -/

theorem lastSwitch_append (on : Bool) (a b : List Bool) : lastSwitch on (a ++ b) = lastSwitch (lastSwitch on a) b := by
  unfold lastSwitch
  rw [List.getLast?_append]
  cases b.getLast? <;> rfl

theorem lastSwitch_nil (on : Bool) : lastSwitch on [] = on := rfl
theorem lastSwitch_one (on x : Bool) : lastSwitch on [x] = x := rfl

theorem isNumbering_iff (name : String) : isNumbering name = true ↔ name = "sectnums" ∨ name = "numbered" := by
  simp [isNumbering]

theorem switch_on (name : String) (on : Bool) : (if isNumbering name then true else on) =
    lastSwitch on (if name = "sectnums" ∨ name = "numbered" then [true] else []) := by
  by_cases h : name = "sectnums" ∨ name = "numbered"
  · rw [if_pos h, if_pos ((isNumbering_iff name).2 h)]; rfl
  · rw [if_neg h, if_neg (fun h' => h ((isNumbering_iff name).1 h'))]; rfl

theorem switch_off (name : String) (on : Bool) : (if isNumbering name then false else on) =
    lastSwitch on (if name = "sectnums" ∨ name = "numbered" then [false] else []) := by
  by_cases h : name = "sectnums" ∨ name = "numbered"
  · rw [if_pos h, if_pos ((isNumbering_iff name).2 h)]; rfl
  · rw [if_neg h, if_neg (fun h' => h ((isNumbering_iff name).1 h'))]; rfl

theorem get_append (a b : NMap) (x : Text) : NMap.get (a ++ b) x = (a.get x).or (b.get x) := by
  induction a with
  | nil => rfl
  | cons p a ih =>
    show (if p.1 = x then some p.2 else NMap.get (a ++ b) x) = (if p.1 = x then some p.2 else NMap.get a x).or _
    split
    · rfl
    · exact ih

theorem traverse_state : ∀ (f : Forest Top) (on : Bool) (p : Text) (c : Nat) (res : NMap),
    (traverse f on p c res).2 = lastSwitch on (switches f)
  | .nil, on, p, c, res => rfl
  | .cons (.elem (.decl name v)) k r, on, p, c, res => by
    show (traverse r _ p c res).2 = lastSwitch on (_ ++ switches r)
    rw [traverse_state r, lastSwitch_append, switch_on]
  | .cons (.elem (.reset name)) k r, on, p, c, res => by
    show (traverse r _ p c res).2 = lastSwitch on (_ ++ switches r)
    rw [traverse_state r, lastSwitch_append, switch_off]
  | .cons (.elem (.sect s)) k r, on, p, c, res => by
    show (traverse r _ p _ _).2 = lastSwitch on (switches k ++ switches r)
    rw [traverse_state r, traverse_state k, lastSwitch_append]
  | .cons (.elem (.front a)) k r, on, p, c, res => traverse_state r on p c res
  | .cons (.elem (.header a b)) k r, on, p, c, res => traverse_state r on p c res
  | .cons (.elem .blank) k r, on, p, c, res => traverse_state r on p c res
  | .cons (.elem .comment) k r, on, p, c, res => traverse_state r on p c res
  | .cons (.elem (.block a b)) k r, on, p, c, res => traverse_state r on p c res
  | .cons (.preamble a) k r, on, p, c, res => traverse_state r on p c res
  | .cons .none k r, on, p, c, res => traverse_state r on p c res

theorem traverse_res : ∀ (f : Forest Top) (on : Bool) (p : Text) (c : Nat) (res : NMap) (x : Text),
    (traverse f on p c res).1.get x = ((traverse f on p c []).1.get x).or (res.get x)
  | .nil, on, p, c, res, x => rfl
  | .cons (.elem (.decl name v)) k r, on, p, c, res, x => traverse_res r _ p c res x
  | .cons (.elem (.reset name)) k r, on, p, c, res, x => traverse_res r _ p c res x
  | .cons (.elem (.sect s)) k r, on, p, c, res, x => by
    cases on with
    | true =>
      show (traverse r (traverse k true (p ++ itoa (c + 1) ++ ['.']) 0 []).2 p (c + 1) _).1.get x =
        ((traverse r (traverse k true (p ++ itoa (c + 1) ++ ['.']) 0 []).2 p (c + 1) ((traverse k true (p ++ itoa (c + 1) ++ ['.']) 0 []).1 ++ [(s.id, p ++ itoa (c + 1))])).1.get x).or _
      rw [traverse_res r, traverse_res r _ _ _ ((traverse k true (p ++ itoa (c + 1) ++ ['.']) 0 []).1 ++ [(s.id, p ++ itoa (c + 1))])]
      have e : (traverse k true (p ++ itoa (c + 1) ++ ['.']) 0 []).1 ++ (s.id, p ++ itoa (c + 1)) :: res =
        ((traverse k true (p ++ itoa (c + 1) ++ ['.']) 0 []).1 ++ [(s.id, p ++ itoa (c + 1))]) ++ res := by simp
      show ((traverse r _ p (c + 1) []).1.get x).or (NMap.get ((traverse k true (p ++ itoa (c + 1) ++ ['.']) 0 []).1 ++ (s.id, p ++ itoa (c + 1)) :: res) x) = _
      rw [e, get_append _ res, Option.or_assoc]
    | false =>
      show (traverse r (traverse k false ([] ++ ['.']) 0 []).2 p c ((traverse k false ([] ++ ['.']) 0 []).1 ++ res)).1.get x =
        ((traverse r (traverse k false ([] ++ ['.']) 0 []).2 p c ((traverse k false ([] ++ ['.']) 0 []).1 ++ [])).1.get x).or _
      rw [traverse_res r, traverse_res r _ _ _ ((traverse k false ([] ++ ['.']) 0 []).1 ++ []), List.append_nil, get_append, Option.or_assoc]
  | .cons (.elem (.front a)) k r, on, p, c, res, x => traverse_res r on p c res x
  | .cons (.elem (.header a b)) k r, on, p, c, res, x => traverse_res r on p c res x
  | .cons (.elem .blank) k r, on, p, c, res, x => traverse_res r on p c res x
  | .cons (.elem .comment) k r, on, p, c, res, x => traverse_res r on p c res x
  | .cons (.elem (.block a b)) k r, on, p, c, res, x => traverse_res r on p c res x
  | .cons (.preamble a) k r, on, p, c, res, x => traverse_res r on p c res x
  | .cons .none k r, on, p, c, res, x => traverse_res r on p c res x

/-- The number given to a section. -/
def own (on : Bool) (p : Text) (c : Nat) : Text := if on then p ++ itoa (c + 1) else []

theorem traverse_sect (s : Sec) (k r : Forest Top) (on : Bool) (p : Text) (c : Nat) (x : Text) :
    (traverse (.cons (.elem (.sect s)) k r) on p c []).1.get x =
    ((traverse r (lastSwitch on (switches k)) p (if on then c + 1 else c) []).1.get x).or
      (((traverse k on (own on p c ++ ['.']) 0 []).1.get x).or (if on = true ∧ s.id = x then some (p ++ itoa (c + 1)) else none)) := by
  show (traverse r (traverse k on (own on p c ++ ['.']) 0 []).2 p (if on then c + 1 else c)
    ((traverse k on (own on p c ++ ['.']) 0 []).1 ++ (if on then [(s.id, own on p c)] else []))).1.get x = _
  rw [traverse_res, traverse_state, get_append]
  cases on with
  | true =>
    show _ = _
    congr 2
    show (if s.id = x then some (p ++ itoa (c + 1)) else none) = _
    by_cases h : s.id = x <;> simp [h]
  | false => rfl

theorem traverse_absent : ∀ (f : Forest Top) (on : Bool) (p : Text) (c : Nat) (x : Text), x ∉ ids f →
    (traverse f on p c []).1.get x = none
  | .nil, on, p, c, x, h => rfl
  | .cons (.elem (.decl name v)) k r, on, p, c, x, h => traverse_absent r _ p c x h
  | .cons (.elem (.reset name)) k r, on, p, c, x, h => traverse_absent r _ p c x h
  | .cons (.elem (.sect s)) k r, on, p, c, x, h => by
    have h : x ∉ s.id :: (ids k ++ ids r) := h
    rw [List.mem_cons, List.mem_append, not_or, not_or] at h
    rw [traverse_sect, traverse_absent k _ _ _ x h.2.1, traverse_absent r _ _ _ x h.2.2, if_neg (fun e => h.1 e.2.symm)]; rfl
  | .cons (.elem (.front a)) k r, on, p, c, x, h => traverse_absent r on p c x h
  | .cons (.elem (.header a b)) k r, on, p, c, x, h => traverse_absent r on p c x h
  | .cons (.elem .blank) k r, on, p, c, x, h => traverse_absent r on p c x h
  | .cons (.elem .comment) k r, on, p, c, x, h => traverse_absent r on p c x h
  | .cons (.elem (.block a b)) k r, on, p, c, x, h => traverse_absent r on p c x h
  | .cons (.preamble a) k r, on, p, c, x, h => traverse_absent r on p c x h
  | .cons .none k r, on, p, c, x, h => traverse_absent r on p c x h

theorem ids_cons (a : Top) (k r : Forest Top) : ids (.cons a k r) = ids (.cons a k .nil) ++ ids r := by
  cases a with
  | elem e => cases e <;> simp [ids]
  | _ => simp [ids]

theorem ids_of_trees : ∀ {f : Forest Top} {a b : List (Top × Forest Top)} {s : Sec} {k : Forest Top},
    trees f = a ++ (.elem (.sect s), k) :: b → ∀ x, x = s.id ∨ x ∈ ids k → x ∈ ids f
  | .nil, a, b, s, k, h, x, hx => by cases a <;> cases h
  | .cons l k' r, a, b, s, k, h, x, hx => by
    rw [ids_cons]
    cases a with
    | nil =>
      simp only [trees, List.nil_append, List.cons.injEq, Prod.mk.injEq] at h
      obtain ⟨⟨rfl, rfl⟩, _⟩ := h
      simp only [ids, List.append_nil, List.cons_append, List.mem_cons, List.mem_append]
      tauto
    | cons t a =>
      simp only [trees, List.cons_append, List.cons.injEq] at h
      exact List.mem_append.2 (Or.inr (ids_of_trees h.2 x hx))

/-- What a list of siblings does before one of them. -/
theorem traverse_tree (x : Text) : ∀ (f : Forest Top) (a b : List (Top × Forest Top)) (s : Sec) (k : Forest Top),
    trees f = a ++ (.elem (.sect s), k) :: b → (ids f).Nodup → (x = s.id ∨ x ∈ ids k) →
    ∀ (on : Bool) (p : Text) (c : Nat),
    (traverse f on p c []).1.get x =
      if x = s.id then (if lastSwitch on (switchesIn a) then some (p ++ itoa (c + numbered on a + 1)) else none)
      else (traverse k (lastSwitch on (switchesIn a)) (own (lastSwitch on (switchesIn a)) p (c + numbered on a) ++ ['.']) 0 []).1.get x
  | .nil, a, b, s, k, h, _, _ => by cases a <;> cases h
  | .cons l k' r, [], b, s, k, h, nd, hx => by
    simp only [trees, List.nil_append, List.cons.injEq, Prod.mk.injEq] at h
    obtain ⟨⟨rfl, rfl⟩, _⟩ := h
    intro on p c
    have nd : (s.id :: (ids k' ++ ids r)).Nodup := nd
    rw [List.nodup_cons, List.nodup_append] at nd
    have hr : x ∉ ids r := by
      rcases hx with rfl | hx
      · intro hh; exact nd.1 (List.mem_append.2 (Or.inr hh))
      · intro hh; exact nd.2.2.2 x hx x hh rfl
    rw [traverse_sect, traverse_absent r _ _ _ x hr]
    show (Option.or _ _) = if x = s.id then (if on then some (p ++ itoa (c + 1)) else none) else (traverse k' on (own on p c ++ ['.']) 0 []).1.get x
    by_cases e : x = s.id
    · have hk : x ∉ ids k' := by
        rw [e]; intro hh; exact nd.1 (List.mem_append.2 (Or.inl hh))
      rw [traverse_absent k' _ _ _ x hk, if_pos e]
      cases on <;> simp [e]
    · rw [if_neg e, if_neg (fun h => e h.2.symm)]
      cases (traverse k' on (own on p c ++ ['.']) 0 []).1.get x <;> rfl
  | .cons l k' r, t :: a, b, s, k, h, nd, hx => by
    simp only [trees, List.cons_append, List.cons.injEq] at h
    obtain ⟨rfl, h⟩ := h
    intro on p c
    have ih := traverse_tree x r a b s k h
    have hin := ids_of_trees h x hx
    have skip : ∀ (on' : Bool), ids (.cons l k' r) = ids r → numbered on ((l, k') :: a) = numbered on' a →
        lastSwitch on (switchesIn ((l, k') :: a)) = lastSwitch on' (switchesIn a) →
        (traverse (.cons l k' r) on p c []) = traverse r on' p c [] → 
        (traverse (.cons l k' r) on p c []).1.get x =
          if x = s.id then (if lastSwitch on (switchesIn ((l, k') :: a)) then some (p ++ itoa (c + numbered on ((l, k') :: a) + 1)) else none)
          else (traverse k (lastSwitch on (switchesIn ((l, k') :: a))) (own (lastSwitch on (switchesIn ((l, k') :: a))) p (c + numbered on ((l, k') :: a)) ++ ['.']) 0 []).1.get x := by
      intro on' e1 e2 e3 e4
      rw [e1] at nd
      rw [e2, e3, e4]
      exact ih nd hx on' p c
    cases l with
    | preamble es => exact skip on rfl rfl rfl rfl
    | none => exact skip on rfl rfl rfl rfl
    | elem e =>
      cases e with
      | front a => exact skip on rfl rfl rfl rfl
      | header a b => exact skip on rfl rfl rfl rfl
      | blank => exact skip on rfl rfl rfl rfl
      | comment => exact skip on rfl rfl rfl rfl
      | block a b => exact skip on rfl rfl rfl rfl
      | decl name v =>
        refine skip (if isNumbering name then true else on) rfl ?_ ?_ rfl
        · show numbered (lastSwitch on (switchesIn _)) a = _
          rw [switch_on]; simp [switchesIn, switches]
        · rw [switch_on]; simp only [switchesIn, switches, List.append_nil]; rw [lastSwitch_append]
      | reset name =>
        refine skip (if isNumbering name then false else on) rfl ?_ ?_ rfl
        · show numbered (lastSwitch on (switchesIn _)) a = _
          rw [switch_off]; simp [switchesIn, switches]
        · rw [switch_off]; simp only [switchesIn, switches, List.append_nil]; rw [lastSwitch_append]
      | sect s' =>
        have nd' : (s'.id :: (ids k' ++ ids r)).Nodup := nd
        rw [List.nodup_cons, List.nodup_append] at nd'
        have hk : x ∉ ids k' := fun hh => nd'.2.2.2 x hh x hin rfl
        have hs : s'.id ≠ x := fun e => nd'.1 (List.mem_append.2 (Or.inr (e ▸ hin)))
        rw [traverse_sect, traverse_absent k' _ _ _ x hk, if_neg (show ¬ (on = true ∧ s'.id = x) from fun h => hs h.2), ih nd'.2.2.1 hx]
        have e1 : lastSwitch on (switchesIn ((Top.elem (.sect s'), k') :: a)) = lastSwitch (lastSwitch on (switches k')) (switchesIn a) := by
          simp only [switchesIn, switches, List.append_nil]; rw [lastSwitch_append]
        have e2 : c + numbered on ((Top.elem (.sect s'), k') :: a) = (if on then c + 1 else c) + numbered (lastSwitch on (switches k')) a := by
          show c + ((if on then 1 else 0) + numbered (lastSwitch on (switchesIn [(Top.elem (.sect s'), k')])) a) = _
          simp only [switchesIn, switches, List.append_nil]
          cases on <;> simp <;> omega
        rw [e1, e2]
        simp

theorem headerEnabled_eq : ∀ (hs : List HElem) (on : Bool), headerEnabled hs on = lastSwitch on (headerSwitches hs)
  | [], on => rfl
  | .decl name v :: hs, on => by
    show headerEnabled hs _ = lastSwitch on (_ ++ _)
    rw [headerEnabled_eq hs, lastSwitch_append, switch_on]
  | .reset name :: hs, on => by
    show headerEnabled hs _ = lastSwitch on (_ ++ _)
    rw [headerEnabled_eq hs, lastSwitch_append, switch_off]
  | .other _ :: hs, on => headerEnabled_eq hs on

theorem sectionNumbers_eq (doc : Forest Top) : sectionNumbers doc = (traverse doc (onAtStart doc) [] 0 []).1 := by
  unfold sectionNumbers onAtStart
  cases headerElems doc with
  | none => rfl
  | some hs => show (traverse doc (headerEnabled hs false) [] 0 []).1 = _; rw [headerEnabled_eq]

def parentPrefix (numbers : NMap) : Option Sec → Text
  | none => []
  | some parent => (numbers.get parent.id).getD [] ++ ['.']

theorem nodup_kids : ∀ {f : Forest Top} {a b : List (Top × Forest Top)} {s : Sec} {k : Forest Top},
    trees f = a ++ (.elem (.sect s), k) :: b → (ids f).Nodup → (ids k).Nodup ∧ s.id ∉ ids k
  | .nil, a, b, s, k, h, nd => by cases a <;> cases h
  | .cons l k' r, a, b, s, k, h, nd => by
    cases a with
    | nil =>
      simp only [trees, List.nil_append, List.cons.injEq, Prod.mk.injEq] at h
      obtain ⟨⟨rfl, rfl⟩, _⟩ := h
      have nd' : (s.id :: (ids k' ++ ids r)).Nodup := nd
      rw [List.nodup_cons, List.nodup_append] at nd'
      exact ⟨nd'.2.1, fun hh => nd'.1 (List.mem_append.2 (Or.inl hh))⟩
    | cons t a =>
      simp only [trees, List.cons_append, List.cons.injEq] at h
      rw [ids_cons, List.nodup_append] at nd
      exact nodup_kids h.2 nd.2.1

theorem siblings_inv (doc : Forest Top) (nd : (ids doc).Nodup) {f : Forest Top} {on : Bool} {parent : Option Sec}
    (h : Siblings doc (onAtStart doc) f on parent) :
    (ids f).Nodup ∧ ∀ x ∈ ids f, (sectionNumbers doc).get x = (traverse f on (parentPrefix (sectionNumbers doc) parent) 0 []).1.get x := by
  induction h with
  | top => exact ⟨nd, fun x _ => by rw [sectionNumbers_eq]; rfl⟩
  | @kids f on parent s k a b hs ht ih =>
    obtain ⟨nd', ih⟩ := ih
    obtain ⟨ndk, hsk⟩ := nodup_kids ht nd'
    refine ⟨ndk, fun x hx => ?_⟩
    have hne : x ≠ s.id := fun e => hsk (e ▸ hx)
    rw [ih x (ids_of_trees ht x (Or.inr hx)), traverse_tree x f a b s k ht nd' (Or.inr hx), if_neg hne]
    have e := (ih s.id (ids_of_trees ht s.id (Or.inl rfl))).trans
      ((traverse_tree s.id f a b s k ht nd' (Or.inl rfl) on (parentPrefix (sectionNumbers doc) parent) 0).trans (if_pos rfl))
    show _ = (traverse k _ (((sectionNumbers doc).get s.id).getD [] ++ ['.']) 0 []).1.get x
    rw [e]
    cases lastSwitch on (switchesIn a) <;> rfl

/-! ### The property -/

/-- C29: in a document whose sections have distinct identifiers, a section has a number exactly if the last switch before it is
on; the number of the `k`-th numbered section below a section numbered `p` is `p.k`, the one of the `k`-th numbered section at the
top of the document is `k`. -/
theorem numbering (doc : Forest Top) (nd : (ids doc).Nodup) {f : Forest Top} {on : Bool} {parent : Option Sec}
    (hf : Siblings doc (onAtStart doc) f on parent) {a b : List (Top × Forest Top)} {s : Sec} {k : Forest Top}
    (ht : trees f = a ++ (.elem (.sect s), k) :: b) :
    (sectionNumbers doc).get s.id =
      if lastSwitch on (switchesIn a) then some (expectedNumber (sectionNumbers doc) parent (numbered on a + 1)) else none := by
  obtain ⟨nd', inv⟩ := siblings_inv doc nd hf
  rw [inv s.id (ids_of_trees ht s.id (Or.inl rfl)), traverse_tree s.id f a b s k ht nd' (Or.inl rfl), if_pos rfl, Nat.zero_add]
  cases parent <;> rfl

/-- C29: nothing but sections gets a number. -/
theorem only_sections (doc : Forest Top) (x : Text) (h : x ∉ ids doc) : (sectionNumbers doc).get x = none := by
  rw [sectionNumbers_eq]; exact traverse_absent doc _ _ _ x h

/-! ### Documents numbered throughout -/

theorem switchesIn_mem : ∀ {f : Forest Top} {a b : List (Top × Forest Top)} {s : Sec} {k : Forest Top},
    trees f = a ++ (.elem (.sect s), k) :: b → ∀ x, x ∈ switchesIn a ∨ x ∈ switches k → x ∈ switches f
  | .nil, a, b, s, k, h, x, hx => by cases a <;> cases h
  | .cons l k' r, a, b, s, k, h, x, hx => by
    have hc : switches (.cons l k' r) = switches (.cons l k' .nil) ++ switches r := by
      cases l with
      | elem e => cases e <;> simp [switches]
      | _ => simp [switches]
    rw [hc]
    cases a with
    | nil =>
      simp only [trees, List.nil_append, List.cons.injEq, Prod.mk.injEq] at h
      obtain ⟨⟨rfl, rfl⟩, _⟩ := h
      simp only [switches, List.append_nil, List.mem_append]
      simp only [switchesIn, List.not_mem_nil, false_or] at hx
      exact Or.inl hx
    | cons t a =>
      simp only [trees, List.cons_append, List.cons.injEq] at h
      obtain ⟨rfl, h⟩ := h
      simp only [switchesIn, List.mem_append] at hx ⊢
      rcases hx with (hx | hx) | hx
      · exact Or.inl hx
      · exact Or.inr (switchesIn_mem h x (Or.inl hx))
      · exact Or.inr (switchesIn_mem h x (Or.inr hx))

theorem lastSwitch_true (ss : List Bool) (h : ∀ b ∈ ss, b = true) : lastSwitch true ss = true := by
  unfold lastSwitch
  cases e : ss.getLast? with
  | none => rfl
  | some b => exact h b (List.mem_of_getLast? e)

theorem numbered_all : ∀ (a : List (Top × Forest Top)), (∀ b ∈ switchesIn a, b = true) → numbered true a = sectionCount a
  | [], _ => rfl
  | (l, k) :: a, h => by
    have h1 : ∀ b ∈ switchesIn [(l, k)], b = true := fun b hb => h b (by simp only [switchesIn, List.append_nil] at hb; simp [switchesIn, hb])
    have h2 : ∀ b ∈ switchesIn a, b = true := fun b hb => h b (by simp [switchesIn, hb])
    have ih := numbered_all a h2
    cases l with
    | elem e =>
      cases e with
      | sect s =>
        show (if true then 1 else 0) + numbered (lastSwitch true (switchesIn _)) a = 1 + sectionCount a
        rw [lastSwitch_true _ h1, ih]; rfl
      | _ =>
        show numbered (lastSwitch true (switchesIn _)) a = sectionCount a
        rw [lastSwitch_true _ h1, ih]
    | _ =>
      show numbered (lastSwitch true (switchesIn _)) a = sectionCount a
      rw [lastSwitch_true _ h1, ih]

/-- The positions, separated by dots. -/
def dotted : List Nat → Text
  | [] => []
  | [n] => itoa n
  | n :: ns => itoa n ++ '.' :: dotted ns

theorem dotted_cons (n : Nat) (ns : List Nat) (h : ns ≠ []) : dotted (n :: ns) = itoa n ++ '.' :: dotted ns := by
  cases ns with
  | nil => exact absurd rfl h
  | cons => rfl

theorem at_ne_nil {f : Forest Top} {path : List Nat} {s : Sec} (h : At f path s) : path ≠ [] := by
  cases h <;> simp

theorem path_aux (doc : Forest Top) (nd : (ids doc).Nodup) {f : Forest Top} {path : List Nat} {s : Sec} (h : At f path s) :
    ∀ {parent : Option Sec}, Siblings doc (onAtStart doc) f true parent → (∀ b ∈ switches f, b = true) →
    (sectionNumbers doc).get s.id = some (parentPrefix (sectionNumbers doc) parent ++ dotted path) := by
  induction h with
  | @here f s k a b ht =>
    intro parent hs hb
    have ha : ∀ b ∈ switchesIn a, b = true := fun b h => hb b (switchesIn_mem ht b (Or.inl h))
    rw [numbering doc nd hs ht, lastSwitch_true _ ha, if_pos rfl, numbered_all a ha, Nat.add_comm]
    cases parent with
    | none => rfl
    | some p =>
      show some (((sectionNumbers doc).get p.id).getD [] ++ ".".toList ++ itoa _) = some (((sectionNumbers doc).get p.id).getD [] ++ ['.'] ++ itoa _)
      rfl
  | @inside f s s' k a b path ht h' ih =>
    intro parent hs hb
    have ha : ∀ b ∈ switchesIn a, b = true := fun b h => hb b (switchesIn_mem ht b (Or.inl h))
    have hk := Siblings.kids hs ht
    rw [lastSwitch_true _ ha] at hk
    have own := numbering doc nd hs ht
    rw [lastSwitch_true _ ha, if_pos rfl, numbered_all a ha, Nat.add_comm] at own
    rw [ih hk (fun b h => hb b (switchesIn_mem ht b (Or.inr h)))]
    rw [dotted_cons _ _ (at_ne_nil h')]
    show some (((sectionNumbers doc).get s.id).getD [] ++ ['.'] ++ dotted path) = _
    rw [own]
    cases parent with
    | none => simp [expectedNumber, parentPrefix]
    | some p => simp [expectedNumber, parentPrefix]

/-- C29: if numbering is on from the start and never switched off, every section has a number, made of its positions among its
sibling sections, at every level. -/
theorem path_numbers (doc : Forest Top) (nd : (ids doc).Nodup) (hon : onAtStart doc = true) (hsw : ∀ b ∈ switches doc, b = true)
    {path : List Nat} {s : Sec} (h : At doc path s) : (sectionNumbers doc).get s.id = some (dotted path) := by
  have := path_aux doc nd h (parent := none) (by rw [← hon]; exact Siblings.top) hsw
  exact this

theorem itoa_no_dot (n : Nat) : '.' ∉ itoa n := fun h => by
  have := Nat.isDigit_of_mem_toDigits (b := 10) (n := n) (by decide) (by decide) h
  revert this; decide

theorem split_dot {x y u v : Text} (hx : '.' ∉ x) (hu : '.' ∉ u) (h : x ++ '.' :: y = u ++ '.' :: v) : x = u ∧ y = v := by
  induction x generalizing u with
  | nil =>
    cases u with
    | nil => exact ⟨rfl, by simpa using h⟩
    | cons c u => simp only [List.nil_append, List.cons_append, List.cons.injEq] at h; exact absurd (h.1 ▸ List.mem_cons_self) hu
  | cons d x ih =>
    cases u with
    | nil => simp only [List.nil_append, List.cons_append, List.cons.injEq] at h; exact absurd (h.1 ▸ List.mem_cons_self) hx
    | cons c u =>
      simp only [List.cons_append, List.cons.injEq] at h
      obtain ⟨rfl, h⟩ := h
      obtain ⟨rfl, rfl⟩ := ih (fun hh => hx (List.mem_cons_of_mem _ hh)) (fun hh => hu (List.mem_cons_of_mem _ hh)) h
      exact ⟨rfl, rfl⟩

theorem dotted_inj : ∀ (p q : List Nat), p ≠ [] → q ≠ [] → dotted p = dotted q → p = q
  | [], _, h, _, _ => absurd rfl h
  | _ :: _, [], _, h, _ => absurd rfl h
  | [m], [n], _, _, h => by rw [C14.itoa_inj m n h]
  | [m], n :: n' :: q, _, _, h => by
    rw [dotted_cons n _ (by simp)] at h
    exact absurd (show '.' ∈ itoa m from (show dotted [m] = itoa m from rfl) ▸ h ▸ by simp) (itoa_no_dot m)
  | m :: m' :: p, [n], _, _, h => by
    rw [dotted_cons m _ (by simp)] at h
    exact absurd (show '.' ∈ itoa n from (show dotted [n] = itoa n from rfl) ▸ h ▸ by simp) (itoa_no_dot n)
  | m :: m' :: p, n :: n' :: q, _, _, h => by
    rw [dotted_cons m _ (by simp), dotted_cons n _ (by simp)] at h
    obtain ⟨h1, h2⟩ := split_dot (itoa_no_dot m) (itoa_no_dot n) h
    rw [C14.itoa_inj m n h1, dotted_inj (m' :: p) (n' :: q) (by simp) (by simp) h2]

/-- C29: sections at different positions then have different numbers. -/
theorem numbers_distinct (doc : Forest Top) (nd : (ids doc).Nodup) (hon : onAtStart doc = true) (hsw : ∀ b ∈ switches doc, b = true)
    {p q : List Nat} {s t : Sec} (hs : At doc p s) (ht : At doc q t)
    (h : (sectionNumbers doc).get s.id = (sectionNumbers doc).get t.id) : p = q := by
  rw [path_numbers doc nd hon hsw hs, path_numbers doc nd hon hsw ht] at h
  exact dotted_inj p q (at_ne_nil hs) (at_ne_nil ht) (by simpa using h)

/-! ### Documents built by the parser -/

/-- The identifier of a section. -/
def sectId : Elem → Option Text
  | .sect s => some s.id
  | _ => none

def sectIdTop : Top → Option Text
  | .elem e => sectId e
  | _ => none

theorem ids_lift : ∀ (f : Forest Elem), (ids (lift f)).Sublist ((flatten f).filterMap sectId)
  | .nil => by simp [lift, ids]
  | .cons a k r => by
    have hk := ids_lift k
    have hr := ids_lift r
    cases a with
    | sect s =>
      show (s.id :: (ids (lift k) ++ ids (lift r))).Sublist ((Elem.sect s :: (flatten k ++ flatten r)).filterMap sectId)
      rw [List.filterMap_cons_some (show sectId (Elem.sect s) = some s.id from rfl), List.filterMap_append]
      exact (hk.append hr).cons_cons _
    | _ =>
      show (ids (lift r)).Sublist ((_ :: (flatten k ++ flatten r)).filterMap sectId)
      rw [List.filterMap_cons_none rfl, List.filterMap_append]
      exact hr.trans (List.sublist_append_right _ _)

theorem ids_attach : ∀ (ts us : List Top) (ks : List (Forest Elem)), ts.filterMap sectIdTop = us.filterMap sectIdTop → ids (attach ts ks) = ids (attach us ks) := by
  have key : ∀ (ts : List Top) (ks : List (Forest Elem)), ids (attach ts ks) =
      (((ts.filterMap sectIdTop).zip (ks.map some ++ List.replicate ts.length none)).flatMap
        (fun p => p.1 :: (match p.2 with | some k => ids (lift k) | none => []))) := by
    intro ts
    induction ts with
    | nil => intro ks; rfl
    | cons t ts ih =>
      intro ks
      have weak : ∀ (l : List Text) (ks : List (Forest Elem)) (n : Nat), l.length ≤ n →
          (l.zip (ks.map some ++ List.replicate (n + 1) none)).flatMap (fun p => p.1 :: (match p.2 with | some k => ids (lift k) | none => [])) =
          (l.zip (ks.map some ++ List.replicate n none)).flatMap (fun p => p.1 :: (match p.2 with | some k => ids (lift k) | none => [])) := by
        intro l
        induction l with
        | nil => intros; rfl
        | cons x l ihl =>
          intro ks n hn
          cases ks with
          | nil =>
            cases n with
            | zero => simp at hn
            | succ n =>
              have := ihl [] n (by simpa using hn)
              simp only [List.map_nil, List.nil_append] at this ⊢
              rw [List.replicate_succ, List.replicate_succ, List.zip_cons_cons, List.zip_cons_cons, List.flatMap_cons, List.flatMap_cons, ← List.replicate_succ, this]
          | cons k ks =>
            simp only [List.map_cons, List.cons_append, List.zip_cons_cons, List.flatMap_cons]
            cases n with
            | zero => simp at hn
            | succ n => rw [ihl ks (n + 1) (by simp at hn; omega)]
      have hlen : ∀ ts : List Top, (ts.filterMap sectIdTop).length ≤ ts.length := fun ts => List.length_filterMap_le _ _
      have other : sectIdTop t = none → attach (t :: ts) ks = .cons t .nil (attach ts ks) → ids (.cons t .nil (attach ts ks)) = ids (attach ts ks) →
          ids (attach (t :: ts) ks) = ((((t :: ts).filterMap sectIdTop).zip (ks.map some ++ List.replicate (t :: ts).length none)).flatMap
            (fun p => p.1 :: (match p.2 with | some k => ids (lift k) | none => []))) := by
        intro h1 h2 h3
        rw [h2, h3, ih ks, List.filterMap_cons_none h1, List.length_cons, weak _ _ _ (hlen ts)]
      cases t with
      | preamble es => exact other rfl rfl rfl
      | none => exact other rfl rfl rfl
      | elem e =>
        cases e with
        | sect s =>
          rw [List.filterMap_cons_some (show sectIdTop (.elem (.sect s)) = some s.id from rfl)]
          cases ks with
          | nil =>
            show s.id :: ([] ++ ids (attach ts [])) = _
            rw [ih []]
            simp only [List.map_nil, List.nil_append, List.length_cons, List.replicate_succ, List.zip_cons_cons, List.flatMap_cons]
            rfl
          | cons k ks =>
            show s.id :: (ids (lift k) ++ ids (attach ts ks)) = _
            rw [ih ks]
            simp only [List.map_cons, List.cons_append, List.length_cons, List.zip_cons_cons, List.flatMap_cons]
            rw [weak _ _ _ (hlen ts)]
        | _ => exact other rfl rfl rfl
  intro ts us ks h
  have tail : ∀ (l : List Text) (ks : List (Forest Elem)) (m n : Nat), l.length ≤ m → l.length ≤ n →
      l.zip (ks.map some ++ List.replicate m none) = l.zip (ks.map some ++ List.replicate n none) := by
    intro l
    induction l with
    | nil => intros; rfl
    | cons x l ihl =>
      intro ks m n hm hn
      cases ks with
      | nil =>
        cases m with
        | zero => simp at hm
        | succ m => cases n with
          | zero => simp at hn
          | succ n =>
            have := ihl [] m n (by simpa using hm) (by simpa using hn)
            simp only [List.map_nil, List.nil_append] at this ⊢
            rw [List.replicate_succ, List.replicate_succ, List.zip_cons_cons, List.zip_cons_cons, this]
      | cons k ks =>
        simp only [List.map_cons, List.cons_append, List.zip_cons_cons]
        rw [ihl ks m n (by simp at hm; omega) (by simp at hn; omega)]
  rw [key, key, h]
  congr 1
  apply tail
  · rw [← h]; exact List.length_filterMap_le _ _
  · exact List.length_filterMap_le _ _

theorem attach_labels : ∀ (f : Forest Elem), ids (attach ((labels f).map Top.elem) (sectionKids f)) = ids (lift f)
  | .nil => rfl
  | .cons a k r => by
    have ih := attach_labels r
    cases a with
    | sect s =>
      show s.id :: (ids (lift k) ++ ids (attach ((labels r).map Top.elem) (sectionKids r))) = s.id :: (ids (lift k) ++ ids (lift r))
      rw [ih]
    | _ => exact ih

/-- Does a list of elements have the shape of a document: front matter or not, header or not, and then neither of them? -/
def Shaped (es : List Elem) : Prop :=
  (∃ (fm : Option (AMap Val)) (titled : Bool) (hs : List HElem) (rest : List Elem), (∀ e ∈ rest, C17.isBody e = true) ∧
    es = (fm.map Elem.front).toList ++ Elem.header titled hs :: rest) ∨ docHeader es = none

theorem sectIds_map (es : List Elem) : (es.map Top.elem).filterMap sectIdTop = es.filterMap sectId := by
  induction es with
  | nil => rfl
  | cons e es ih =>
    cases h : sectId e with
    | none => rw [List.map_cons, List.filterMap_cons_none (show sectIdTop (.elem e) = none from h), List.filterMap_cons_none h, ih]
    | some i => rw [List.map_cons, List.filterMap_cons_some (show sectIdTop (.elem e) = some i from h), List.filterMap_cons_some h, ih]

theorem mem_takeWhile {α : Type} (p : α → Bool) : ∀ (l : List α), ∀ x ∈ l.takeWhile p, p x = true
  | [], x, h => by cases h
  | a :: l, x, h => by
    rw [List.takeWhile_cons] at h
    split at h
    · rcases List.mem_cons.1 h with rfl | h
      · assumption
      · exact mem_takeWhile p l x h
    · cases h

theorem preamble_ids (es : List Elem) (h : Shaped es) : (insertPreamble es).filterMap sectIdTop = es.filterMap sectId := by
  rcases h with ⟨fm, titled, hs, rest, hb, rfl⟩ | h
  · have hw := C17.preamble_inserted_iff fm titled hs rest hb
    by_cases w : C17.WantsPreamble titled rest
    · rw [hw.1 w, List.filterMap_append, sectIds_map, List.filterMap_cons_none (show sectIdTop (.preamble _) = none from rfl), sectIds_map]
      have e : ((fm.map Elem.front).toList ++ Elem.header titled hs :: rest) =
          ((fm.map Elem.front).toList ++ [Elem.header titled hs]) ++ (rest.takeWhile (fun e => !C17.isSect e) ++ rest.dropWhile (fun e => !C17.isSect e)) := by
        rw [List.takeWhile_append_dropWhile]; simp
      rw [e, List.filterMap_append (l := (fm.map Elem.front).toList ++ [Elem.header titled hs]) (l' := List.takeWhile _ _ ++ _), List.filterMap_append (l := List.takeWhile _ _)]
      have z : (rest.takeWhile (fun e => !C17.isSect e)).filterMap sectId = [] := by
        rw [List.filterMap_eq_nil_iff]
        intro x hx
        have := mem_takeWhile _ _ x hx
        cases x with
        | sect s => simp [C17.isSect] at this
        | _ => rfl
      rw [z, List.nil_append]
    · rw [hw.2 w, sectIds_map]
  · rw [C17.no_header_no_preamble es h, sectIds_map]

/-- C29: in the document built from any elements (`C14.aggregateDoc`) with titled sections and non-empty identifiers, the
identifiers of the sections are distinct, so that the theorems above apply to it; this holds whether or not a preamble is
inserted. -/
theorem document_ids (alnum : Char → Bool) (fmt : Val → Text) (attrs : CtxAttrs) (es : List Elem)
    (h : ∀ s ∈ C14.sections (aggregateDoc alnum fmt attrs es), s.titled = true ∧ s.id ≠ [])
    (hs : Shaped (labels (aggregateDoc alnum fmt attrs es).agg.tree)) :
    (ids (withPreamble (aggregateDoc alnum fmt attrs es).agg.tree)).Nodup := by
  unfold withPreamble
  rw [ids_attach _ ((labels (aggregateDoc alnum fmt attrs es).agg.tree).map Top.elem) _ (by rw [preamble_ids _ hs, sectIds_map]), attach_labels]
  refine List.Nodup.sublist (ids_lift _) ?_
  have u := C14.unique_ids alnum fmt attrs es
  have e1 : (C14.sections (aggregateDoc alnum fmt attrs es)).filter (fun s => !s.id.isEmpty && s.titled) = C14.sections (aggregateDoc alnum fmt attrs es) := by
    rw [List.filter_eq_self]
    intro s hs
    have := h s hs
    simp [this.1, this.2]
  rw [e1] at u
  have e2 : ∀ l : List Elem, l.filterMap sectId = (l.filterMap C14.asSection).map Sec.id := by
    intro l
    induction l with
    | nil => rfl
    | cons e l ih =>
      have hx : sectId e = (C14.asSection e).map Sec.id := by cases e <;> rfl
      cases h : C14.asSection e with
      | none => rw [List.filterMap_cons_none h, List.filterMap_cons_none (hx.trans (by rw [h]; rfl)), ih]
      | some i => rw [List.filterMap_cons_some h, List.filterMap_cons_some (hx.trans (by rw [h]; rfl)), ih]; rfl
  rw [e2]
  exact u

/-! ### Examples and findings -/

private def sec (id : String) : Top := .elem (.sect ⟨1, [.str id.toList], true, id.toList⟩)
private def on : Top := .elem (.decl "sectnums" (.str []))
private def off : Top := .elem (.reset "sectnums")

/-- A header with `:sectnums:`, two sections, the first with two subsections, the second of which switches numbering off. -/
private def doc1 : Forest Top :=
  .cons (.elem (.header true [.decl "sectnums" (.str [])])) .nil
    (.cons (sec "a") (.cons (sec "b") .nil (.cons (sec "c") (.cons off .nil .nil) .nil))
      (.cons (sec "d") .nil (.cons on .nil (.cons (sec "e") .nil .nil))))

example : ["a", "b", "c", "d", "e"].map (fun i => (sectionNumbers doc1).get i.toList) =
    [some "1".toList, some "1.1".toList, some "1.2".toList, none, some "2".toList] := by decide
example : (ids doc1).Nodup ∧ onAtStart doc1 = true := by decide

/-- Numbered throughout. -/
private def doc2 : Forest Top :=
  .cons (.elem (.header true [.decl "sectnums" (.str [])])) .nil
    (.cons (sec "a") (.cons (sec "b") .nil (.cons (.elem (.block 0 [])) .nil (.cons (sec "c") .nil .nil))) .nil)
example : (ids doc2).Nodup ∧ onAtStart doc2 = true ∧ ∀ b ∈ switches doc2, b = true := by decide
example : At doc2 [1, 2] ⟨1, [.str "c".toList], true, "c".toList⟩ :=
  At.inside (a := [(.elem (.header true [.decl "sectnums" (.str [])]), .nil)]) rfl
    (At.here (a := [(sec "b", .nil), (.elem (.block 0 []), .nil)]) (k := .nil) (b := []) rfl)
example : Siblings doc2 true (.cons (sec "b") .nil (.cons (.elem (.block 0 [])) .nil (.cons (sec "c") .nil .nil))) true
    (some ⟨1, [.str "a".toList], true, "a".toList⟩) :=
  Siblings.kids (a := [(.elem (.header true [.decl "sectnums" (.str [])]), .nil)]) (b := []) Siblings.top rfl

/-- FINDING: a `:sectnums:` in the text before the first section is ignored when the document has a preamble: numbering does not
look into the preamble (without the block of text, or without header, it is not ignored). -/
theorem finding_preamble :
    let es : List Elem := [.header true [], .block 0 [], .decl "sectnums" (.str []), .sect ⟨1, [], true, "a".toList⟩]
    (sectionNumbers (withPreamble (aggregateTree es))).get "a".toList = none ∧
    (sectionNumbers (withPreamble (aggregateTree (es.eraseIdx 1)))).get "a".toList = some "1".toList := by decide

/-- FINDING: switching numbering on inside of a section without number gives its subsections numbers that begin with a dot, and
different sections the same number. -/
theorem finding_dot :
    let doc : Forest Top := .cons (sec "a") (.cons on .nil (.cons (sec "b") .nil (.cons off .nil .nil)))
      (.cons (sec "c") (.cons on .nil (.cons (sec "d") .nil .nil)) .nil)
    (sectionNumbers doc).get "b".toList = some ".1".toList ∧ (sectionNumbers doc).get "d".toList = some ".1".toList := by decide

/-- FINDING: numbering given through the API only is ignored: only declarations in the document count (the model takes no other
input). An attribute declared before the header hides the header, and with it the declarations of the header. -/
theorem finding_hidden_header :
    let es : List Elem := [.decl "x" (.str []), .header true [.decl "sectnums" (.str [])], .sect ⟨1, [], true, "a".toList⟩]
    (sectionNumbers (withPreamble (aggregateTree es))).get "a".toList = none ∧
    (sectionNumbers (withPreamble (aggregateTree (es.drop 1)))).get "a".toList = some "1".toList := by decide

end Verif.C29
