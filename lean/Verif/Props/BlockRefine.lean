import Verif.Props.BlockParse
import Verif.Props.Refine

/-!
# C62, continued — The blocks in blocks are found by the refinement
-/
namespace Verif
namespace C62
open Peg Grammar Actions FragmentLoop Composed
open Walk (Any Kind)
open C59 (Cut Code alnum)
open C49 (LenCode)
open Paragraphs (Line Opens Continues)

/-! ### Without the spaces at the ends of lines -/

def bare (l : Line) : Line := ⟨l.text, []⟩

mutual
/-- A block without the spaces at the ends of its lines. -/
def tidy : Block → Block
  | .para l ls => .para (bare l) (ls.map bare)
  | .blank _ => .blank []
  | .verb k f ls => .verb k ⟨f.n, [], []⟩ (ls.map bare)
  | .comp k f bs => .comp k ⟨f.n, [], []⟩ (tidyAll bs)
def tidyAll : List Block → List Block
  | [] => []
  | b :: bs => tidy b :: tidyAll bs
end

theorem isBlank_iff (c : Char) : (c == ' ' || c == '\t') = isBlank c := Bool.or_comm _ _

/-- The text before the spaces at the end. -/
theorem trimRight_append {t w : Text} (hw : ∀ c ∈ w, isBlank c = true) (ht : ∀ c, t.getLast? = some c → isBlank c = false) : trimRight (t ++ w) = t := by
  have hw' : ∀ c ∈ w.reverse, (c == ' ' || c == '\t') = true := fun c hc => (isBlank_iff c).trans (hw c (List.mem_reverse.mp hc))
  unfold trimRight
  rw [List.reverse_append, List.dropWhile_append_of_pos hw']
  cases hr : t.reverse with
  | nil => rw [List.reverse_eq_nil_iff] at hr; subst hr; rfl
  | cons c x =>
    have e : t = x.reverse ++ [c] := by rw [← List.reverse_reverse t, hr]; simp
    have hc := ht c (by rw [e]; exact List.getLast?_concat)
    rw [List.dropWhile_cons_of_neg (by rw [isBlank_iff, hc]; decide), e]
    simp

theorem trimRight_spec (t : Text) : ∃ w, (∀ c ∈ w, isBlank c = true) ∧ t = trimRight t ++ w := by
  refine ⟨(t.reverse.takeWhile (fun c => c == ' ' || c == '\t')).reverse, fun c hc => (isBlank_iff c).symm.trans (C59.mem_takeWhile (p := fun c => c == ' ' || c == '\t') (List.mem_reverse.mp hc)), ?_⟩
  unfold trimRight
  rw [← List.reverse_append, List.takeWhile_append_dropWhile, List.reverse_reverse]

theorem trimRight_fence {c : Char} (hc : isBlank c = false) (n : Nat) {w : Text} (hw : ∀ x ∈ w, isBlank x = true) : trimRight (fence c n w) = fence c n [] := by
  refine (trimRight_append hw fun x hx => ?_).trans (List.append_nil _).symm
  rw [(List.mem_replicate.mp (List.mem_of_getLast? hx)).2]
  exact hc

theorem verb_mark_blank (k : Verbatim) : isBlank k.mark = false := by cases k <;> rfl
theorem comp_mark_blank (k : Compound) : isBlank k.mark = false := by cases k <;> rfl

theorem bare_full (l : Line) : (bare l).full = l.text := List.append_nil _

theorem bare_tidy {l : Line} (h1 : ∀ c ∈ l.trail, isBlank c = true) (h2 : ∀ c, l.text.getLast? = some c → isBlank c = false) : trimRight l.full = l.text :=
  trimRight_append h1 h2

theorem bares {ls : List Line} (h : ∀ l ∈ ls, (∀ c ∈ l.trail, isBlank c = true) ∧ ∀ c, l.text.getLast? = some c → isBlank c = false) :
    (ls.map bare).map Line.full = (ls.map Line.full).map trimRight := by
  rw [List.map_map, List.map_map]
  refine List.map_congr_left fun l hl => ?_
  show (bare l).full = trimRight l.full
  rw [bare_full, bare_tidy (h l hl).1 (h l hl).2]

mutual
theorem block_lines_tidy {alnum : Char → Bool} : ∀ {b : Block}, b.Ok alnum → (tidy b).lines = b.lines.map trimRight
  | .para l ls, h => by
    have := bares (ls := l :: ls) (fun x hx => by
      rcases List.mem_cons.mp hx with rfl | hx
      · exact ⟨h.1.trail, h.1.last⟩
      · exact ⟨(h.2.2 x hx).1.trail, (h.2.2 x hx).1.last⟩)
    exact this
  | .blank w, h => by
    show [[]] = [trimRight w]
    have := trimRight_append (t := []) (w := w) h (fun _ h => nomatch h)
    rw [List.nil_append] at this
    rw [this]
  | .verb k f ls, h => by
    show fence k.mark f.n [] :: ((ls.map bare).map Line.full ++ [fence k.mark f.n []]) = List.map trimRight (_ :: (_ ++ [_]))
    rw [List.map_cons, List.map_append, bares (fun l hl => ⟨(h.2.2.2 l hl).1.trail, (h.2.2.2 l hl).1.last⟩), trimRight_fence (verb_mark_blank k) f.n h.2.1.1]
    simp only [List.map_cons, List.map_nil]
    rw [trimRight_fence (verb_mark_blank k) f.n h.2.1.2]
  | .comp k f bs, h => by
    show fence k.mark f.n [] :: (lines (tidyAll bs) ++ [fence k.mark f.n []]) = List.map trimRight (_ :: (_ ++ [_]))
    rw [List.map_cons, List.map_append, lines_tidy h.2.2.1, trimRight_fence (comp_mark_blank k) f.n h.2.1.1]
    simp only [List.map_cons, List.map_nil]
    rw [trimRight_fence (comp_mark_blank k) f.n h.2.1.2]
theorem lines_tidy {alnum : Char → Bool} : ∀ {bs : List Block}, Good alnum bs → lines (tidyAll bs) = (lines bs).map trimRight
  | [], _ => rfl
  | b :: bs, h => by
    show (tidy b).lines ++ lines (tidyAll bs) = (b.lines ++ lines bs).map trimRight
    rw [block_lines_tidy h.1, lines_tidy h.2.2, List.map_append]
end

theorem closes_trim {c : Char} {n : Nat} {l : Text} (h : Closes c n (trimRight l)) : Closes c n l := by
  obtain ⟨w, hw, e⟩ := h
  obtain ⟨v, hv, e'⟩ := trimRight_spec l
  refine ⟨w ++ v, fun x hx => ?_, ?_⟩
  · rcases List.mem_append.mp hx with hx | hx
    · exact hw x hx
    · exact hv x hx
  · rw [e', e]
    exact List.append_assoc _ _ _

theorem bare_ok {l : Line} (h : l.Ok) : (bare l).Ok :=
  ⟨fun c hc => h.one c (List.mem_append_left _ (by rw [bare_full] at hc; exact hc)), h.visible, (fun _ h => nomatch h), h.last⟩

theorem full_prefix (l : Line) : l.text <+: l.full := List.prefix_append _ _

theorem text_ne {l : Line} (h : l.Ok) : l.text ≠ [] := by
  obtain ⟨c, hc, _⟩ := h.visible
  exact List.ne_nil_of_mem hc

theorem bare_opens {alnum : Char → Bool} {l : Line} (hl : l.Ok) (h : Opens alnum l) : Opens alnum (bare l) := by
  have hp := full_prefix l
  constructor
  · obtain ⟨c, r, e, ha, hd⟩ := h.first
    cases ht : l.text with
    | nil => exact absurd ht (text_ne hl)
    | cons d x =>
      have e' : l.full = d :: (x ++ l.trail) := by unfold Line.full; rw [ht]; rfl
      rw [e] at e'
      injection e' with e1 e2
      subst e1
      refine ⟨c, x, by rw [bare_full, ht], ha, fun d y hy hdy hpre => hd d y hy hdy ?_⟩
      rw [e2]
      exact hpre.trans (List.prefix_append _ _)
  · rw [bare_full]
    exact fun hi => h.noLabel (hi.trans hp.isInfix)
  · intro p hm
    rw [bare_full]
    exact fun hi => h.noAdmonition p hm (hi.trans hp)

theorem bare_continues {l : Line} (hl : l.Ok) (h : Continues l) : Continues (bare l) := by
  intro c r e
  rw [bare_full] at e
  exact h c (r ++ l.trail) (by unfold Line.full; rw [e]; rfl)

theorem separate_tidy {b : Block} : ∀ {bs : List Block}, Separate b bs → Separate (tidy b) (tidyAll bs)
  | [], _ => by cases b <;> trivial
  | x :: bs, h => by
    cases b <;> cases x <;> first | trivial | exact h | skip
    next k f bs' => cases k <;> first | exact h | trivial

mutual
theorem tidy_ok {alnum : Char → Bool} : ∀ {b : Block}, b.Ok alnum → (tidy b).Ok alnum
  | .para l ls, h => by
    refine ⟨bare_ok h.1, bare_opens h.1 h.2.1, fun x hx => ?_⟩
    obtain ⟨y, hy, rfl⟩ := List.mem_map.mp hx
    exact ⟨bare_ok (h.2.2 y hy).1, bare_continues (h.2.2 y hy).1 (h.2.2 y hy).2⟩
  | .blank w, _ => fun _ h => nomatch h
  | .verb k f ls, h => by
    refine ⟨h.1, ⟨(fun _ h => nomatch h), fun _ h => nomatch h⟩, (fun _ h => nomatch h), fun x hx => ?_⟩
    obtain ⟨y, hy, rfl⟩ := List.mem_map.mp hx
    obtain ⟨ht, hc⟩ := h.2.2.2 y hy
    refine ⟨⟨fun c hc => ht.one c (List.mem_append_left _ (by rw [bare_full] at hc; exact hc)), (fun _ h => nomatch h), ht.last⟩, fun hcl => hc ?_⟩
    rw [bare_full, ← bare_tidy ht.trail ht.last] at hcl
    exact closes_trim hcl
  | .comp k f bs, h => by
    refine ⟨h.1, ⟨(fun _ h => nomatch h), fun _ h => nomatch h⟩, tidy_good h.2.2.1, fun x hx => ?_⟩
    rw [lines_tidy h.2.2.1] at hx
    obtain ⟨y, hy, rfl⟩ := List.mem_map.mp hx
    exact fun hcl => h.2.2.2 y hy (closes_trim hcl)
theorem tidy_good {alnum : Char → Bool} : ∀ {bs : List Block}, Good alnum bs → Good alnum (tidyAll bs)
  | [], _ => trivial
  | _ :: _, h => ⟨tidy_ok h.1, separate_tidy h.2.1, tidy_good h.2.2⟩
end

theorem trimRight_trimRight (t : Text) : trimRight (trimRight t) = trimRight t := by
  have h := trimRight_append (t := trimRight t) (w := []) (fun _ h => nomatch h) (fun c hc => by
    unfold trimRight at hc
    rw [List.getLast?_reverse] at hc
    cases he : t.reverse.dropWhile (fun c => c == ' ' || c == '\t') with
    | nil => rw [he] at hc; cases hc
    | cons d x =>
      rw [he] at hc
      cases hc
      have := List.head_dropWhile_not (fun c : Char => c == ' ' || c == '\t') (l := t.reverse) (by rw [he]; exact fun h => nomatch h)
      rw [← isBlank_iff]
      simp only [he, List.head_cons] at this
      exact this)
  rw [List.append_nil] at h
  exact h

theorem rawLines_trim (ls : List Text) : rawLines (ls.map trimRight) = rawLines ls := by
  unfold rawLines
  rw [List.map_map]
  congr 1
  refine List.map_congr_left fun l _ => ?_
  show Any.raw (trimRight (trimRight l)) = _
  rw [trimRight_trimRight]

theorem kept_bare : ∀ ls : List Line, Paragraphs.kept (ls.map bare) = Paragraphs.kept ls
  | [] => rfl
  | [_] => rfl
  | l :: l' :: ls => congrArg (Any.raw (l.text ++ ['\n']) :: ·) (kept_bare (l' :: ls))

/-- The parser makes the same of a block without the spaces at the ends of its lines. -/
theorem element_tidy {alnum : Char → Bool} {b : Block} (h : b.Ok alnum) : element (tidy b) = element b := by
  cases b with
  | para l ls => exact congrArg (Any.paragraph []) (kept_bare (l :: ls))
  | blank w => rfl
  | verb k f ls =>
    show Any.block _ [] (rawLines ((ls.map bare).map Line.full)) = Any.block _ [] (rawLines (ls.map Line.full))
    rw [bares (fun l hl => ⟨(h.2.2.2 l hl).1.trail, (h.2.2.2 l hl).1.last⟩), rawLines_trim]
  | comp k f bs =>
    show Any.block _ [] (rawLines (lines (tidyAll bs))) = Any.block _ [] (rawLines (lines bs))
    rw [lines_tidy h.2.2.1, rawLines_trim]

/-! ### What is in a block -/

/-- The content of a block, without the blank line at its end. -/
def inner : List Block → List Block
  | [] => []
  | [.blank _] => []
  | b :: bs => b :: inner bs

mutual
/-- A block after refinement. -/
def refined : Block → Any
  | .para l ls => element (.para l ls)
  | .blank _ => .leaf 0
  | .verb k f ls => element (.verb k f ls)
  | .comp k _ bs => .block (compKind k) [] (refinedAll bs)
/-- The content of a block. -/
def refinedAll : List Block → List Any
  | [] => []
  | [.blank _] => []
  | b :: bs => refined b :: refinedAll bs
end

theorem serialize_raw (n : Nat) : ∀ ls : List Text, Walk.serializeLoop n (rawLines ls) = (joinLF (ls.map trimRight), [])
  | [] => rfl
  | [l] => by simp [rawLines, appendNewlines, Walk.serializeLoop, Walk.textOf, joinLF]
  | l :: l' :: ls => by
    have ih := serialize_raw n (l' :: ls)
    show Walk.serializeLoop n (.raw (trimRight l ++ ['\n']) :: rawLines (l' :: ls)) = _
    simp only [Walk.serializeLoop, Walk.textOf, ih]
    simp [joinLF]

/-- Elements that are left alone when place holders are replaced. -/
def Closed' (e : Any) : Prop := Walk.restoreOne [] e = e ∧ e ≠ .nil

theorem raws_restored : ∀ {es : List Any}, (∀ e ∈ es, ∃ t, e = .raw t) → Walk.restore [] es = es := C61.restore_raws _

theorem rawLines_raw : ∀ ls : List Text, ∀ e ∈ rawLines ls, ∃ t, e = .raw t
  | [], _, h => nomatch h
  | [l], e, h => ⟨_, List.mem_singleton.mp h⟩
  | l :: l' :: ls, e, h => by
    rcases List.mem_cons.mp (show e ∈ Any.raw (trimRight l ++ ['\n']) :: rawLines (l' :: ls) from h) with rfl | h
    · exact ⟨_, rfl⟩
    · exact rawLines_raw (l' :: ls) e h

theorem kept_raw : ∀ ls : List Line, ∀ e ∈ Paragraphs.kept ls, ∃ t, e = .raw t
  | [], _, h => nomatch h
  | [l], e, h => ⟨_, List.mem_singleton.mp h⟩
  | l :: l' :: ls, e, h => by
    rcases List.mem_cons.mp (show e ∈ Any.raw (l.text ++ ['\n']) :: Paragraphs.kept (l' :: ls) from h) with rfl | h
    · exact ⟨_, rfl⟩
    · exact kept_raw (l' :: ls) e h

theorem element_closed (b : Block) : Closed' (element b) := by
  cases b with
  | para l ls => exact ⟨congrArg (Any.paragraph []) (raws_restored (kept_raw _)), fun h => nomatch h⟩
  | blank w => exact ⟨rfl, fun h => nomatch h⟩
  | verb k f ls => exact ⟨congrArg (Any.block (verbKind k) []) (raws_restored (rawLines_raw _)), fun h => nomatch h⟩
  | comp k f bs => exact ⟨congrArg (Any.block (compKind k) []) (raws_restored (rawLines_raw _)), fun h => nomatch h⟩

theorem restore_closed : ∀ {es : List Any}, (∀ e ∈ es, Closed' e) → Walk.restore [] es = es
  | [], _ => rfl
  | e :: es, h => by
    show Walk.restoreOne [] e :: Walk.restore [] es = _
    rw [(h e List.mem_cons_self).1, restore_closed (fun x hx => h x (List.mem_cons_of_mem _ hx))]

theorem dropNils_closed {es : List Any} (h : ∀ e ∈ es, Closed' e) : Refine.dropNils es = es := by
  unfold Refine.dropNils
  cases hr : es.reverse with
  | nil => rw [List.reverse_eq_nil_iff] at hr; subst hr; rfl
  | cons e x =>
    have he := h e (List.mem_reverse.mp (by rw [hr]; exact List.mem_cons_self))
    rw [List.dropWhile_cons_of_neg (by cases e <;> first | exact absurd rfl he.2 | exact fun h => nomatch h), ← hr, List.reverse_reverse]

theorem inner_elements {alnum : Char → Bool} : ∀ {bs : List Block}, Good alnum bs → (trimmed (tidyAll bs)).map element = (inner bs).map element
  | [], _ => rfl
  | [b], h => by
    have e := element_tidy h.1
    cases b with
    | blank w => rfl
    | para l ls => exact congrArg (fun x => [x]) e
    | verb k f ls => exact congrArg (fun x => [x]) e
    | comp k f bs => exact congrArg (fun x => [x]) e
  | b :: b' :: bs, h => by
    have ih := inner_elements (bs := b' :: bs) h.2.2
    have e1 : trimmed (tidyAll (b :: b' :: bs)) = tidy b :: trimmed (tidyAll (b' :: bs)) := by
      unfold trimmed
      have : (tidyAll (b :: b' :: bs)).getLast? = (tidyAll (b' :: bs)).getLast? := List.getLast?_cons_cons
      rw [this]
      split <;> rfl
    have e2 : inner (b :: b' :: bs) = b :: inner (b' :: bs) := by
      cases b <;> rfl
    rw [e1, e2, List.map_cons, List.map_cons, ih, element_tidy h.1]

/-- The content of a block is parsed with the rule `DelimitedBlockElements`, with the grammar (document_processing_refine_fragments.go:144-152). -/
def ReadsBlocks (D : Refine.Reader) (alnum : Char → Bool) : Prop :=
  alnum '\uFFFD' = false ∧ ∀ t : Text, ∃ (σ : Type) (S : Sem σ) (A : Peg.Code σ) (s : σ) (len : σ → Nat), Code S ∧ LenCode S len ∧ Obeys A ∧ C59.alnum S = alnum ∧
    ∀ n s' v u, runV grammar S A n (.rule R.DelimitedBlockElements) t s t = some (.ok s' [v] u) → D.parse t = some v

variable {D : Refine.Reader} {alnum : Char → Bool}

theorem parsed (hR : ReadsBlocks D alnum) {bs : List Block} (h : Good alnum bs) : D.parse (joinLF (lines bs)) = some (.slice ((trimmed bs).map element)) := by
  obtain ⟨σ, S, A, s, len, hS, hL, hA, ha, hp⟩ := hR.2 (joinLF (lines bs))
  subst ha
  have hx := elements_rule hS hL hA hR.1 h (st := joinLF (lines bs))
  obtain ⟨n, r, he, _⟩ := C45.parse_ends S hS.progress R.DelimitedBlockElements s (joinLF (lines bs))
  obtain ⟨q, ⟨n, hr⟩, _⟩ := evalV_of_eval grammar S A ⟨n, he⟩
  have hq := hx s q ⟨n, hr⟩
  cases q with
  | fail s1 => cases hq
  | ok s1 v u => cases hq; exact hp n s1 _ _ hr

theorem reparsed (hR : ReadsBlocks D alnum) {bs : List Block} (h : Good alnum bs) : Refine.reparse D (rawLines (lines bs)) = some ((inner bs).map element) := by
  have hc : ∀ e ∈ (inner bs).map element, Closed' e := by
    intro e he
    obtain ⟨b, _, rfl⟩ := List.mem_map.mp he
    exact element_closed b
  unfold Refine.reparse
  rw [serialize_raw, ← lines_tidy h]
  dsimp only
  rw [parsed hR (tidy_good h), inner_elements h]
  dsimp only
  rw [dropNils_closed hc, restore_closed hc]

theorem compound_nests (k : Compound) : Refine.nests (compKind k) = true := by cases k <;> rfl
theorem verbatim_nests (k : Verbatim) : Refine.nests (verbKind k) = false := by cases k <;> rfl

theorem one {f : Nat → Any → Refine.Out Any} {e e' : Any} (h : ∃ N, ∀ n, N ≤ n → f n e = .done e') : ∃ N, ∀ n, N ≤ n → Refine.refineAll (f n) [e] = .done [e'] := by
  obtain ⟨N, h⟩ := h
  refine ⟨N, fun n hn => ?_⟩
  rw [Refine.refineAll, h n hn]
  rfl

mutual
theorem refine_block (hR : ReadsBlocks D alnum) : ∀ {b : Block}, b.Ok alnum → ∃ N, ∀ n, N ≤ n → Refine.refine D n (element b) = .done (refined b)
  | .para l ls, _ => ⟨1, fun n hn => by obtain ⟨m, rfl⟩ := Nat.exists_eq_add_of_le' hn; rfl⟩
  | .blank w, _ => ⟨1, fun n hn => by obtain ⟨m, rfl⟩ := Nat.exists_eq_add_of_le' hn; rfl⟩
  | .verb k f ls, _ => ⟨1, fun n hn => by
      obtain ⟨m, rfl⟩ := Nat.exists_eq_add_of_le' hn
      show (if Refine.nests (verbKind k) = true then (_ : Refine.Out Any) else _) = _
      rw [verbatim_nests]
      rfl⟩
  | .comp k f bs, h => by
    obtain ⟨N, hN⟩ := refine_blocks hR h.2.2.1
    refine ⟨N + 1, fun n hn => ?_⟩
    obtain ⟨m, rfl⟩ := Nat.exists_eq_add_of_le' (Nat.le_trans (Nat.le_add_left 1 N) hn)
    show (if Refine.nests (compKind k) = true then (_ : Refine.Out Any) else _) = _
    rw [compound_nests, if_pos rfl, reparsed hR h.2.2.1]
    dsimp only
    rw [hN m (by omega)]
    rfl
/-- The content of a block. -/
theorem refine_blocks (hR : ReadsBlocks D alnum) : ∀ {bs : List Block}, Good alnum bs → ∃ N, ∀ n, N ≤ n →
    Refine.refineAll (Refine.refine D n) ((inner bs).map element) = .done (refinedAll bs)
  | [], _ => ⟨0, fun _ _ => rfl⟩
  | [.blank _], _ => ⟨0, fun _ _ => rfl⟩
  | [.para l ls], h => one (refine_block hR h.1)
  | [.verb k f ls], h => one (refine_block hR h.1)
  | [.comp k f bs], h => one (refine_block hR h.1)
  | b :: b' :: bs, h => by
    obtain ⟨N1, h1⟩ := refine_block hR h.1
    obtain ⟨N2, h2⟩ := refine_blocks hR (bs := b' :: bs) h.2.2
    refine ⟨max N1 N2, fun n hn => ?_⟩
    have e1 : inner (b :: b' :: bs) = b :: inner (b' :: bs) := by cases b <;> rfl
    have e2 : refinedAll (b :: b' :: bs) = refined b :: refinedAll (b' :: bs) := by cases b <;> rfl
    rw [e1, e2, List.map_cons, Refine.refineAll, h1 n (by omega), h2 n (by omega)]
end

end C62
end Verif
