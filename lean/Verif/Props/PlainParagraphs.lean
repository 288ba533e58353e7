import Verif.Props.Paragraphs
import Verif.Props.PlainText

/-!
# C59, continued — Paragraphs without markup

The substitutions leave the text of such paragraphs as it is, with the special characters set apart.
-/
namespace Verif
namespace C59
open Peg Grammar Actions Paragraphs PlainText FragmentLoop
open Walk (Any World Settings Bad)
open Subs (Sub)

/-- The text of a paragraph: its lines, without the spaces at their ends. -/
def body : List Line → Text
  | [] => []
  | [l] => l.text
  | l :: ls => l.text ++ '\n' :: body ls

/-- The inline content is parsed with the rule `NormalGroup` (parser_ext.go:16-29, `Entrypoint("NormalGroup")`), with the substitutions that are
set: a success of the rule is the result of the parsing. -/
def Grammatical (W : World) : Prop :=
  ∀ (c : Settings) (t : Text), c.entry = .normalGroup → t ≠ [] → ∃ (σ : Type) (S : Sem σ) (A : Peg.Code σ) (s : σ),
    C45.ChecksProgress S ∧ Obeys A ∧ Enabled S c.subs ∧ C58.Classes S ∧
    ∀ n s' es u, runV grammar S A n (.rule R.NormalGroup) t s t = some (.ok s' [.slice es] u) → W.parse c t = some es

theorem parse_plain {W : World} (hW : Grammatical W) {c : Settings} {t : Text} (hc : c.entry = .normalGroup) (ht : Plain c.subs t)
    (hne : t ≠ []) : W.parse c t = some (pieces (decide (Sub.specialchars ∈ c.subs)) t) := by
  obtain ⟨σ, S, A, s, hS, hA, hE, hC, h⟩ := hW c t hc hne
  obtain ⟨n, s', hr⟩ := C58.left_alone hS hA hE hC ht hne (.inl rfl) s
  exact h n s' _ _ hr

theorem serialize_kept : ∀ (n : Nat) (ls : List Line), Walk.serializeLoop n (kept ls) = (body ls, [])
  | _, [] => rfl
  | _, [l] => by simp [kept, body, Walk.serializeLoop, Walk.textOf]
  | n, l :: l' :: ls => by
    have ih := serialize_kept n (l' :: ls)
    show Walk.serializeLoop n (.raw (l.text ++ ['\n']) :: kept (l' :: ls)) = _
    simp only [Walk.serializeLoop, Walk.textOf, ih]
    simp [body]

/-- Pieces of text. -/
def Textual (e : Any) : Prop := (∃ t, e = .str t) ∨ ∃ t, e = .special t

theorem pieces_textual (b : Bool) (t : Text) : ∀ e ∈ pieces b t, Textual e := by
  intro e he
  rcases C58.pieces_kinds b t e he with ⟨c, h, _⟩ | ⟨u, h, _⟩
  · exact .inr ⟨_, h⟩
  · exact .inl ⟨_, h⟩

theorem restore_textual {es : List Any} (h : ∀ e ∈ es, Textual e) (store : List (Text × Any)) : Walk.restore store es = es := by
  induction es with
  | nil => rfl
  | cons e es ih =>
    show Walk.restoreOne store e :: Walk.restore store es = _
    rw [ih (fun x hx => h x (List.mem_cons_of_mem _ hx))]
    rcases h e List.mem_cons_self with ⟨t, rfl⟩ | ⟨t, rfl⟩ <;> rfl

theorem replace_textual {W : World} {get : String → Option Any} {p : Option (List Sub)} {cs : AMap AttrRefs.CVal} {es : List Any}
    (h : ∀ e ∈ es, Textual e) : Walk.replaceLoop W get p cs es = .ok ⟨es, cs, false⟩ := by
  induction es with
  | nil => rfl
  | cons e es ih =>
    have ih := ih (fun x hx => h x (List.mem_cons_of_mem _ hx))
    rcases h e List.mem_cons_self with ⟨t, rfl⟩ | ⟨t, rfl⟩ <;> simp [Walk.replaceLoop, Walk.replaceOne, ih]

theorem inline_textual {W : World} {o o' : List Walk.Opt} {subs : List Sub} {es : List Any}
    (h : ∀ e ∈ es, Textual e) : Walk.inlineAll W o o' subs es = .ok ⟨es, subs⟩ := by
  induction es with
  | nil => rfl
  | cons e es ih =>
    have ih := ih (fun x hx => h x (List.mem_cons_of_mem _ hx))
    rcases h e List.mem_cons_self with ⟨t, rfl⟩ | ⟨t, rfl⟩ <;> simp [Walk.inlineAll, Walk.inlineOne, ih]

theorem settle_last (o : List Walk.Opt) (subs : List Sub) : (Walk.settle (o ++ [.entry .normalGroup] ++ [.subs subs])).entry = .normalGroup ∧
    (Walk.settle (o ++ [.entry .normalGroup] ++ [.subs subs])).subs = subs := by
  unfold Walk.settle
  rw [List.foldl_append, List.foldl_append]
  exact ⟨rfl, rfl⟩

/-- What becomes of a block when its inline content is substituted. -/
def content : Block → Any
  | .para l ls => .paragraph [] (pieces true (body (l :: ls)))
  | .blank _ => .leaf 0

theorem body_ne {l : Line} {ls : List Line} (h : l.Ok) : body (l :: ls) ≠ [] := by
  obtain ⟨c, hc, _⟩ := h.visible
  cases ls with
  | nil => intro e; rw [show body [l] = l.text from rfl] at e; rw [e] at hc; cases hc
  | cons l' ls => intro e; exact absurd e (by simp [body])

/-- A paragraph without markup. -/
theorem substituted {W : World} (hW : Grammatical W) (c : Walk.Ctx) (opts : List Walk.Opt) {l : Line} {ls : List Line} (h : l.Ok)
    (hp : Plain Subs.normal (body (l :: ls))) :
    Walk.substParagraph W c opts [] (kept (l :: ls)) = .ok (content (.para l ls), c) := by
  have hne : (kept (l :: ls)).isEmpty = false := by cases ls <;> rfl
  have hset := settle_last (c.opts ++ opts) Subs.normal
  have hparse := parse_plain hW hset.1 (hset.2.symm ▸ hp) (body_ne h)
  rw [hset.2] at hparse
  have htext := pieces_textual true (body (l :: ls))
  have hwith : Walk.parseWith W (.slice (kept (l :: ls))) Subs.normal (c.opts ++ (opts ++ [.entry .normalGroup])) =
      .ok (pieces true (body (l :: ls))) := by
    unfold Walk.parseWith
    simp only [Walk.serialize, serialize_kept]
    rw [if_neg (body_ne h), ← List.append_assoc c.opts, hparse]
    exact congrArg Except.ok (restore_textual htext [])
  have hslice : Walk.substSlice W c Subs.normal (opts ++ [.entry .normalGroup]) (kept (l :: ls)) =
      .ok (pieces true (body (l :: ls)), c.counters) := by
    unfold Walk.substSlice
    rw [hne, hwith]
    simp only [Bool.false_eq_true, if_false]
    rw [if_pos (by decide)]
    unfold Walk.replaceAndReparse
    rw [replace_textual htext]
    rfl
  have hsubs : Walk.subsFor (Walk.paragraphOf (Walk.getTextD W [] "style")) [] = .ok Subs.normal := rfl
  unfold Walk.substParagraph
  have hattr : Walk.substAttrs W c opts [] = .ok [] := rfl
  rw [hattr]
  dsimp only
  rw [hsubs]
  dsimp only
  rw [hslice]
  dsimp only
  rw [inline_textual htext]
  rfl

/-- **C59** (second part): in a document of paragraphs without markup, the substitutions leave the text of each paragraph as it is, set apart only
where there is a special character; blank lines and the context are not changed. -/
theorem left_as_they_are {W : World} (hW : Grammatical W) {alnum : Char → Bool} : ∀ {bs : List Block}, Good alnum bs →
    (∀ l ls, .para l ls ∈ bs → Plain Subs.normal (body (l :: ls))) → ∀ (c : Walk.Ctx), ∀ b ∈ bs,
    Walk.substFragment W c (.elements [b.element]) = .ok (.elements [content b], c)
  | [], _, _, _, _, h => nomatch h
  | b :: bs, hg, hp, c, x, hx => by
    rcases List.mem_cons.mp hx with rfl | hx
    · cases x with
      | para l ls =>
        have := substituted hW c [] hg.1 (hp l ls List.mem_cons_self)
        simp only [Walk.substFragment, Walk.substAll, Block.element, Walk.substOne, this]
      | blank w => rfl
    · exact left_as_they_are hW (good_tail hg) (fun l ls h => hp l ls (List.mem_cons_of_mem _ h)) c x hx

/-! ### The hypotheses can be met -/

/-- Everything is parsed with the grammar and the actions that are modelled. -/
noncomputable def world : World where
  parse c t := by
    classical
    exact if h : ∃ es, ∃ n s' u, runV grammar (C58.sem c.subs) C58.acts n (.rule R.NormalGroup) t () t = some (.ok s' [.slice es] u)
      then some h.choose else none
  plainText _ := none
  attribution _ := none
  format _ := []

theorem world_grammatical : Grammatical world := by
  intro c t _ _
  refine ⟨Unit, C58.sem c.subs, C58.acts, (), C58.sem_progress _, C58.acts_obey, C58.sem_enabled _, C58.sem_classes _, ?_⟩
  intro n s' es u h
  have hx : ∃ es, ∃ n s' u, runV grammar (C58.sem c.subs) C58.acts n (.rule R.NormalGroup) t () t = some (.ok s' [.slice es] u) :=
    ⟨es, n, s', u, h⟩
  refine (dif_pos hx).trans ?_
  obtain ⟨n2, s2, u2, h2⟩ := hx.choose_spec
  have := runV_one h h2
  injection this with _ h3 _
  injection h3 with h3 _
  injection h3 with h3
  rw [← h3]

/-- Two lines. -/
example (c : Walk.Ctx) : Walk.substParagraph world c [] [] [.raw "If a < b,\n".toList, .raw "then stop.".toList] =
    .ok (.paragraph [] [.str "If a ".toList, .special ['<'], .str " b,\nthen stop.".toList], c) :=
  substituted world_grammatical c [] (l := ⟨"If a < b,".toList, []⟩) (ls := [⟨"then stop.".toList, []⟩])
    ⟨by decide +kernel, ⟨'I', by decide, by decide⟩, (fun _ h => nomatch h), fun c h => by
      have : c = ',' := by
        have e : "If a < b,".toList.getLast? = some ',' := by decide +kernel
        rw [show (Line.mk "If a < b,".toList []).text = "If a < b,".toList from rfl, e] at h
        exact (Option.some.inj h).symm
      subst this; rfl⟩
    (by decide +kernel)

end C59
end Verif
