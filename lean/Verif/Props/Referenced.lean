import Verif.Props.RefLoop
import Verif.Props.RefRender
import Verif.Model.Stage
/-!
# C67 — Attribute declarations, references and counters, from the text to the page
-/
namespace Verif
namespace C67
open Referenced
open Rend hiding Item bind_ok
open Walk (Any)
open FragmentLoop

/-! ### The end of a document -/

theorem fits_init : ∀ {xs : List Item} {s : State} {x : Item}, Fits s (xs ++ [x]) → Fits s xs
  | [], _, _, _ => trivial
  | _ :: _, _, _, h => ⟨h.1, fits_init h.2⟩

theorem fits_trimmed {xs : List Item} {s : State} (h : Fits s xs) : Fits s (trimmed xs) := by
  rcases trimmed_split xs with e | e
  · rw [e]; exact h
  · rw [e] at h; exact fits_init h

theorem page_blank (u : Bool) : ∀ (xs : List Item) (s : State), page u s (xs ++ [.blank []]) = page u s xs
  | [], _ => rfl
  | x :: xs, s => by
    show x.html u s ++ page u (x.next s) (xs ++ _) = _ ++ page u (x.next s) xs
    rw [page_blank u xs]

theorem page_trimmed (u : Bool) (s : State) (xs : List Item) : page u s (trimmed xs) = page u s xs := by
  rcases trimmed_split xs with e | e
  · rw [e]
  · conv => rhs; rw [e]
    rw [page_blank]

/-! ### Paragraphs begin with a letter or a number -/

section
variable {σ : Type} {S : Peg.Sem σ}

theorem shown_head (hS : C59.Code S) (s : State) {l : TLine} {ls : List TLine} (hok : l.line.Ok) (ho : Paragraphs.Opens (C59.alnum S) l.line) :
    ∀ c ∈ (shown s (body (l :: ls))).head?, c ≠ '\n' := by
  obtain ⟨toks, trail⟩ := l
  obtain ⟨c, r, hc, ha, _⟩ := ho.first
  have hnot := fun (d : Char) h1 h2 => C59.alnum_not hS ha (d := d) h1 h2
  have hbr : c ≠ '{' := hnot '{' (by decide) (by decide)
  have hbs : c ≠ '\\' := hnot '\\' (by decide) (by decide)
  have hnl : c ≠ '\n' := hnot '\n' (by decide) (by decide)
  replace hc : written toks ++ trail = c :: r := hc
  cases toks with
  | nil =>
    obtain ⟨d, hd, _⟩ := hok.visible
    exact nomatch hd
  | cons t ts =>
    have hb : ∃ ys, body (⟨t :: ts, trail⟩ :: ls) = t :: ys := by
      cases ls with
      | nil => exact ⟨_, rfl⟩
      | cons l2 ls => exact ⟨_, rfl⟩
    obtain ⟨ys, hb⟩ := hb
    rw [hb]
    replace hc : t.written ++ (written ts ++ trail) = c :: r := by rw [← List.append_assoc]; exact hc
    cases t with
    | char d =>
      have : d = c := (List.cons.inj hc).1
      subst this
      intro e he
      obtain rfl : d = e := Option.some.inj he
      exact hnl
    | ref n => exact absurd (List.cons.inj hc).1.symm hbr
    | kept n => exact absurd (List.cons.inj hc).1.symm hbs
    | count n => exact absurd (List.cons.inj hc).1.symm hbr
    | step n => exact absurd (List.cons.inj hc).1.symm hbr

theorem neat_of (hS : C59.Code S) : ∀ {xs : List Item} {s : State}, Good (C59.alnum S) xs → Fits s xs → Neat s xs
  | [], _, _, _ => trivial
  | x :: xs, s, hg, hf => by
    have ih := neat_of hS (s := x.next s) (good_tail hg) hf.2
    cases x with
    | para l ls =>
      refine ⟨trivial, ⟨shown_head hS s hg.1.1 hg.1.2.1, fun c hc e => ?_⟩, ih⟩
      rw [e] at hc
      exact hf.1.2 hc
    | blank w => exact ⟨trivial, trivial, ih⟩
    | declare n g v => exact ⟨hg.1.2.1, trivial, ih⟩
    | reset n b t => exact ⟨hg.1.2.1, trivial, ih⟩

end

/-! ### The substitutions, one fragment after the other -/

theorem stage {W : Walk.World} {letter number : Char → Bool} (hC : AsciiClasses letter number) (hW : Grammatical letter number W) :
    ∀ {xs : List Item} {s : State} {c : Walk.Ctx}, Knows c s → Good (fun d => letter d || number d) xs → Fits s xs →
    ∃ as c', Walk.substStage W c (xs.map (fun x => .elements [element x])) = .ok (as.map (fun a => .elements [a]), c') ∧ Contents s xs as
  | [], _, c, _, _, _ => ⟨[], c, rfl, .nil⟩
  | x :: xs, s, c, hK, hg, hf => by
    have step : ∀ {a : Any} {c1 : Walk.Ctx}, Walk.substFragment W c (.elements [element x]) = .ok (.elements [a], c1) → Content s x a → Knows c1 (x.next s) →
        ∃ as c', Walk.substStage W c ((x :: xs).map (fun x => .elements [element x])) = .ok (as.map (fun a => .elements [a]), c') ∧ Contents s (x :: xs) as := by
      intro a c1 h1 h2 h3
      obtain ⟨as, c', h4, h5⟩ := stage hC hW h3 (good_tail hg) hf.2
      refine ⟨a :: as, c', ?_, .cons h2 h5⟩
      rw [List.map_cons, Walk.substStage, h1]
      dsimp only
      rw [h4]
      rfl
    cases x with
    | para l ls =>
      obtain ⟨es, c1, h1, h2, h3, _⟩ := substituted hC hW hK hg.1.1 hg.1.2.2.2 hg.2.1 hf.1.1
      refine step (a := .paragraph [] es) (c1 := c1) ?_ ⟨es, rfl, h2⟩ h3
      simp only [Walk.substFragment, Walk.substAll, element, Walk.substOne, h1]
    | blank w => exact step (a := .leaf 0) (c1 := c) rfl rfl hK
    | declare n g v =>
      obtain ⟨c1, h1, h2⟩ := declare_known (W := W) hK hg.1.2.2.2.2.simple hf.1
      refine step (a := .declare n (.text (shown s v))) (c1 := c1) ?_ rfl h2
      simp only [Walk.substFragment, Walk.substAll, element, Walk.substOne, h1]
    | reset n b t => exact step (a := .reset n) (c1 := Walk.substReset c n) rfl rfl (reset_known hK n)

/-- The attributes given from outside, as the parser has them. -/
def outside (given : AMap Text) : AMap Any := given.map (fun p => (p.1, .text p.2))

/-- The attributes given from outside, as the renderer has them. -/
def settings (given : AMap Text) : Attrs := given.map (fun p => (p.1, .str p.2))

theorem get_map {α β : Type} (f : α → β) (k : String) : ∀ m : AMap α, AMap.get (m.map (fun p => (p.1, f p.2))) k = (AMap.get m k).map f
  | [] => rfl
  | (n, v) :: m => by
    have ih := get_map f k m
    rw [List.map_cons]
    show (if n = k then some (f v) else AMap.get _ k) = Option.map f (if n = k then some v else AMap.get m k)
    by_cases h : n = k
    · rw [if_pos h, if_pos h]; rfl
    · rw [if_neg h, if_neg h]; exact ih

theorem knows_start (given : AMap Text) : Knows (Walk.newCtx (outside given)) (State.start (fun n => AMap.get given n)) :=
  ⟨fun n => get_map Any.text n given, fun _ => rfl, fun _ => rfl⟩

/-! ### The other stages -/

section
variable (num : Any → Nat)

/-- An element for the filter. -/
def filterView : Any → Filter.FEl
  | .paragraph a es => .parent (num (.paragraph a es)) (es.map (fun e => .leaf (num e)))
  | .leaf _ => .blank
  | e => .leaf (num e)

/-- An element for the aggregation. -/
def aggView : Any → Elem
  | .declare n (.text v) => .decl n (.str v)
  | .reset n => .reset n
  | e => .block (num e) []

theorem feet (n : Foot.Notes) : ∀ as : List Any, Foot.collectAll n (as.map (fun a => [C60.footView num a])) = (n, as.map (fun a => [C60.footView num a]))
  | [] => rfl
  | a :: as => by
    have h : Foot.substAll n [C60.footView num a] = (n, [C60.footView num a]) := by
      cases a with
      | paragraph b es =>
        show ((Foot.subInline n _).1, [Foot.FNode.para (Foot.subInline n _).2]) = _
        rw [C60.sub_leaves]
        rfl
      | _ => rfl
    show ((Foot.collectAll (Foot.substAll n _).1 _).1, (Foot.substAll n _).2 :: (Foot.collectAll (Foot.substAll n _).1 _).2) = _
    rw [h, feet n as]
    rfl

theorem blanks_dropped (as : List Any) : as.flatMap (fun a => Filter.filterOut [filterView num a]) = (as.filter notBlank).map (filterView num) := by
  induction as with
  | nil => rfl
  | cons a as ih =>
    rw [List.flatMap_cons, ih]
    cases a with
    | leaf w =>
      show Filter.filterOut [.blank] ++ _ = (as.filter notBlank).map _
      simp [Filter.filterOut, Filter.isNoise]
    | paragraph b es =>
      show Filter.filterOut [.parent _ (List.map _ _)] ++ _ = _ :: (as.filter notBlank).map _
      simp only [Filter.filterOut, Filter.isNoise, Filter.inside, Filter.isEmptyHeader, C60.filter_leaves]
      rfl
    | _ =>
      show Filter.filterOut [.leaf _] ++ _ = _ :: (as.filter notBlank).map _
      simp only [Filter.filterOut, Filter.isNoise, Filter.inside, Filter.isEmptyHeader]
      rfl

theorem flat (as : List Any) : aggregateTree (as.map (aggView num)) = C60.siblings (as.map (aggView num)) := by
  have key : ∀ (as : List Any) (xs : List Elem), ((as.map (aggView num)).foldl Agg.append ⟨C60.siblings xs, []⟩) =
      ⟨C60.siblings (xs ++ as.map (aggView num)), []⟩ := by
    intro as
    induction as with
    | nil => intro xs; simp
    | cons a as ih =>
      intro xs
      rw [List.map_cons, List.foldl_cons]
      have : Agg.append ⟨C60.siblings xs, []⟩ (aggView num a) = ⟨C60.siblings (xs ++ [aggView num a]), []⟩ := by
        have : Agg.append ⟨C60.siblings xs, []⟩ (aggView num a) = Agg.mk (Forest.insertAt 0 (aggView num a) (C60.siblings xs)) [] := by
          unfold aggView
          split <;> rfl
        rw [this]
        unfold Forest.insertAt
        rw [C60.snoc_siblings]
      rw [this, ih]
      simp
  have := key as []
  exact congrArg Agg.tree this

theorem no_preamble (as : List Any) : insertPreamble (as.map (aggView num)) = (as.map (aggView num)).map .elem := by
  have : newPreamble (as.map (aggView num)) = none := by
    cases as with
    | nil => rfl
    | cons a as =>
      rw [List.map_cons]
      unfold aggView
      split <;> rfl
  unfold insertPreamble
  rw [this]

end

theorem nothing_to_refine (R : Refine.Reader) (n : Nat) (x : Item) : Refine.refineFragment R (n + 1) (.elements [element x]) = .done (.elements [element x]) := by
  cases x <;> rfl

/-! ### From the text to the page -/

/-- The stages of a conversion (libasciidoc.go:50-98, document_processing.go:16-46), for a document whose elements are paragraphs, blank lines, and
declarations and resets of attributes: the text `src` is preprocessed; the result is cut into blocks, each one a fragment; the fragments are refined;
substitutions are applied to one fragment after the other, in a context which in the beginning has the attributes `given` from outside; footnotes are
collected; lists are arranged; blank lines are filtered out; what remains is aggregated, and rendered with the same given attributes. `num` names
elements for the stages whose models do not look at them. -/
structure Stages {σ : Type} (env : Env) (files : Nat) (ctx : Verif.Ctx) (S : Peg.Sem σ) (A : Peg.Code σ) (s : σ) (R : Refine.Reader) (W : Walk.World)
    (given : AMap Text) (L : Lib) (cfg : Config) (src : Text) (html : Text) where
  text : Text
  blocks : List Any
  contents : List Any
  kept : List Any
  last : Walk.Ctx
  preprocessed : preprocess env (files + 1) ctx src = .ok (text, ctx.offsets)
  parsed : ∃ depth rounds, loopV S A (fun _ => false) depth rounds s text = some ⟨blocks.map (fun b => [b]), .endOfDocument, []⟩
  refined : ∀ b ∈ blocks, ∀ n, Refine.refineFragment R (n + 1) (.elements [b]) = .done (.elements [b])
  substituted : Walk.substStage W (Walk.newCtx (outside given)) (blocks.map (fun b => .elements [b])) = .ok (contents.map (fun a => .elements [a]), last)
  footnotes : ∀ num notes, Foot.collectAll notes (contents.map (fun e => [C60.footView num e])) = (notes, contents.map (fun e => [C60.footView num e]))
  lists : ∀ (num : Any → Nat), ∀ e ∈ contents, Lists.arrangeEls [.leaf (num e)] = some [.leaf (num e)]
  filtered : ∀ num, contents.flatMap (fun e => Filter.filterOut [filterView num e]) = kept.map (filterView num)
  aggregated : ∀ (num : Any → Nat), aggregateTree (kept.map (aggView num)) = C60.siblings (kept.map (aggView num))
  preamble : ∀ (num : Any → Nat), insertPreamble (kept.map (aggView num)) = (kept.map (aggView num)).map .elem
  configured : cfg.attrs = settings given
  rendered : ∀ n, render L (n + 2) ⟨kept.map toEl, [], [], none⟩ cfg = .ok html

/-- **C67**: a document of paragraphs with references to attributes and counters, and with declarations of attributes between them, from the text to
the page: each reference shows the value that was given from outside, or else the value of the last declaration before it that was not reset; a
reference to an attribute without value, and an escaped one, remains as it is written; counters count from one, each for itself, over the whole
document; and nothing else changes. -/
theorem text_to_page {σ τ : Type} {env : Env} {S0 : Peg.Sem τ} {elem : τ → Option RawElem} {sects within : τ → Bool} (hE : C50.Reads env S0 elem sects within)
    (files : Nat) {ctx : Verif.Ctx} (hroot : ctx.sectEnabled = false) {S : Peg.Sem σ} {A : Peg.Code σ} (hS : C59.Code S) (hA : Actions.Obeys A)
    (hN : ∀ s st t, (S.pred 102 s st t).1 = true) (s : σ)
    (R : Refine.Reader) {W : Walk.World} (hW : Grammatical S.letter S.number W) {L : Lib} (hL : L.tmpl.paragraph = Tmpl.Html5.paragraphTmpl)
    (given : AMap Text) {cfg : Config} (hg : cfg.attrs = settings given) (hcfg : C60.Article L cfg) {xs : List Item} (hx : Good (C59.alnum S) xs)
    (hu : ∀ l ∈ lines xs, C50.Untouched l) (hf : Fits (State.start (fun n => AMap.get given n)) xs) :
    Nonempty (Stages env files ctx S A s R W given L cfg (source xs)
      (page (getBoolD cfg.attrs "unicode" true) (State.start (fun n => AMap.get given n)) xs)) := by
  have hC : AsciiClasses S.letter S.number := hS.ascii
  have hx' := trimmed_good hx
  have hf' := fits_trimmed hf
  obtain ⟨as, c', h1, h2⟩ := stage hC hW (knows_start given) hx' hf'
  refine ⟨⟨joinLF (lines xs), (trimmed xs).map element, as, as.filter notBlank, c', C50.document_unchanged hE files ctx hroot (lines xs) hu, ?_, ?_, ?_,
    fun num notes => feet num notes as, fun _ _ _ => rfl, fun num => blanks_dropped num as, fun num => flat num _, fun num => no_preamble num _, hg, ?_⟩⟩
  · rw [List.map_map]
    exact items_parsed hS hA hN hx s
  · intro b hb n
    obtain ⟨x, _, rfl⟩ := List.mem_map.mp hb
    exact nothing_to_refine R n x
  · rw [List.map_map]; exact h1
  · intro n
    rw [← page_trimmed]
    exact page_of hL hcfg h2 (neat_of hS hx' hf') n

end C67
end Verif
