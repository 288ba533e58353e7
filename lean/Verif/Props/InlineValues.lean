import Verif.Spec.Inlined
import Verif.Model.Actions
import Verif.Props.PlainText

/-!
# C65 — Inline markup: the values of the parser, and what they stand for
-/
namespace Verif
namespace C65
open Actions PlainText Inlined
open Prose (char)
open Walk (Any)

/-- The element of a kind of quoted text. -/
def kindTag : Nat → Text
  | 0 => "strong".toList
  | 1 => "em".toList
  | 2 => "code".toList
  | 3 => "mark".toList
  | 4 => "sub".toList
  | _ => "sup".toList

/-- The name of a symbol, as in the grammar (parser.peg:2489-2582). -/
def signName (s : Sign) : String := String.ofList s.written

/-- The label of a symbol. -/
def signLabel : Sign → Nat
  | .copyright => 10
  | .registered => 11
  | .trademark => 12
  | .ellipsis => 13
  | .apostrophe => 14
  | .openSingle => 15
  | .closeSingle => 16
  | .openDouble => 17
  | .closeDouble => 18
  | .rightArrow => 19
  | .leftArrow => 20
  | .doubleRightArrow => 21
  | .doubleLeftArrow => 22
  | .dash => 23

theorem sign_symbol (s : Sign) : newSymbol (signName s) = some (.leaf (signLabel s)) := by cases s <;> rfl

/-- Text without special characters. -/
def Flat (t : Text) : Prop := ∀ c ∈ t, isSpecial c = false

/-- A reference, as an element. -/
def cross (id : Text) (l : Option Text) : Any := .closed crossLabel [.text id, (l.map Any.text).getD .nil]

/-- Elements, and the HTML they stand for. -/
inductive Draws (u : View) : List Any → Text → Prop
  | nil : Draws u [] []
  | str {t : Text} {es : List Any} {h : Text} : Flat t → Draws u es h → Draws u (.str t :: es) (t.flatMap (char u.unicode) ++ h)
  | special {c : Char} {es : List Any} {h : Text} : isSpecial c = true → Draws u es h → Draws u (.special [c] :: es) (char u.unicode c ++ h)
  | sign {s : Sign} {es : List Any} {h : Text} : Draws u es h → Draws u (.leaf (signLabel s) :: es) (s.shown.flatMap entity ++ h)
  | group {k : Nat} {xs es : List Any} {g h : Text} : k < 6 → Draws u xs g → Draws u es h →
      Draws u (.group (quotedLabel k) [] xs :: es) (tagged (kindTag k) g ++ h)
  | ref {id : Text} {l : Option Text} {es : List Any} {h : Text} : Draws u es h → Draws u (cross id l :: es) (link u (u.target id) (l.getD (u.label (u.target id))) ++ h)

/-- Values before they are merged, and the HTML they stand for. -/
inductive Raw (u : View) : List Any → Text → Prop
  | nil : Raw u [] []
  | null {vs : List Any} {h : Text} : Raw u vs h → Raw u (.nil :: vs) h
  | text {t : Text} {vs : List Any} {h : Text} : Flat t → Raw u vs h → Raw u (.text t :: vs) (t.flatMap (char u.unicode) ++ h)
  | single {e : Any} {vs : List Any} {g h : Text} : Draws u [e] g → Raw u vs h → Raw u (e :: vs) (g ++ h)
  | slice {xs vs : List Any} {g h : Text} : Raw u xs g → Raw u vs h → Raw u (.slice xs :: vs) (g ++ h)

/-- The same, with slices that are merged. -/
inductive Mid (u : View) : List Any → Text → Prop
  | nil : Mid u [] []
  | null {vs : List Any} {h : Text} : Mid u vs h → Mid u (.nil :: vs) h
  | text {t : Text} {vs : List Any} {h : Text} : Flat t → Mid u vs h → Mid u (.text t :: vs) (t.flatMap (char u.unicode) ++ h)
  | single {e : Any} {vs : List Any} {g h : Text} : Draws u [e] g → Mid u vs h → Mid u (e :: vs) (g ++ h)
  | slice {xs vs : List Any} {g h : Text} : Draws u xs g → Mid u vs h → Mid u (.slice xs :: vs) (g ++ h)

variable {u : View}

theorem Draws.of_eq {es : List Any} {g h : Text} (hd : Draws u es g) (e : g = h) : Draws u es h := e ▸ hd

theorem Draws.append {a b : List Any} {g h : Text} (ha : Draws u a g) (hb : Draws u b h) : Draws u (a ++ b) (g ++ h) := by
  induction ha with
  | nil => exact hb
  | str hf _ ih => rw [List.append_assoc]; exact .str hf ih
  | special hf _ ih => rw [List.append_assoc]; exact .special hf ih
  | sign _ ih => rw [List.append_assoc]; exact .sign ih
  | group hk hx _ _ ih => rw [List.append_assoc]; exact .group hk hx ih
  | ref _ ih => rw [List.append_assoc]; exact .ref ih

theorem draws_flush {buf : Text} (h : Flat buf) : Draws u (Walk.flush buf) (buf.flatMap (char u.unicode)) := by
  unfold Walk.flush
  split
  · next e => rw [e]; exact .nil
  · have := Draws.str (u := u) h .nil
    rwa [List.append_nil] at this

theorem flat_append {a b : Text} (ha : Flat a) (hb : Flat b) : Flat (a ++ b) := fun c hc => (List.mem_append.mp hc).elim (ha c) (hb c)

theorem flat_nil : Flat [] := fun _ h => nomatch h

theorem flat_draws {es : List Any} {h : Text} (he : Draws u es h) : ∀ {res : List Any} {r : Text} {buf : Text}, Draws u res r → Flat buf →
    Draws u (Walk.flatLoop res buf es) (r ++ buf.flatMap (char u.unicode) ++ h) := by
  induction he with
  | nil => intro res r buf hr hb; rw [List.append_nil]; exact hr.append (draws_flush hb)
  | @str t es h hf _ ih =>
    intro res r buf hr hb
    exact Draws.of_eq (ih hr (flat_append hb hf)) (by simp)
  | special hf _ ih =>
    intro res r buf hr hb
    exact Draws.of_eq (ih ((hr.append (draws_flush hb)).append (.special hf .nil)) flat_nil) (by simp)
  | sign _ ih =>
    intro res r buf hr hb
    exact Draws.of_eq (ih ((hr.append (draws_flush hb)).append (.sign .nil)) flat_nil) (by simp)
  | group hk hx _ _ ih =>
    intro res r buf hr hb
    exact Draws.of_eq (ih ((hr.append (draws_flush hb)).append (.group hk hx .nil)) flat_nil) (by simp)
  | ref _ ih =>
    intro res r buf hr hb
    exact Draws.of_eq (ih ((hr.append (draws_flush hb)).append (.ref .nil)) flat_nil) (by simp)

theorem mid_draws {es : List Any} {h : Text} (he : Mid u es h) : ∀ {res : List Any} {r : Text} {buf : Text}, Draws u res r → Flat buf →
    Draws u (Walk.mergeLoop res buf es) (r ++ buf.flatMap (char u.unicode) ++ h) := by
  induction he with
  | nil => intro res r buf hr hb; rw [List.append_nil]; exact hr.append (draws_flush hb)
  | null _ ih => intro res r buf hr hb; exact ih hr hb
  | @text t es h hf _ ih =>
    intro res r buf hr hb
    exact Draws.of_eq (ih hr (flat_append hb hf)) (by simp)
  | @single e vs g h hd _ ih =>
    intro res r buf hr hb
    cases hd with
    | str hf hn =>
      cases hn
      exact Draws.of_eq (ih hr (flat_append hb hf)) (by simp)
    | special hf hn =>
      cases hn
      exact Draws.of_eq (ih ((hr.append (draws_flush hb)).append (.special hf .nil)) flat_nil) (by simp)
    | sign hn =>
      cases hn
      exact Draws.of_eq (ih ((hr.append (draws_flush hb)).append (.sign .nil)) flat_nil) (by simp)
    | group hk hx hn =>
      cases hn
      exact Draws.of_eq (ih ((hr.append (draws_flush hb)).append (.group hk hx .nil)) flat_nil) (by simp)
    | ref hn =>
      cases hn
      exact Draws.of_eq (ih ((hr.append (draws_flush hb)).append (.ref .nil)) flat_nil) (by simp)
  | @slice xs vs g h hd _ ih =>
    intro res r buf hr hb
    exact Draws.of_eq (ih (flat_draws ((hr.append (draws_flush hb)).append hd) .nil flat_nil) flat_nil) (by simp)

theorem raw_inners {es : List Any} {h : Text} (he : Raw u es h) : Mid u (Walk.inners es) h := by
  induction he with
  | nil => exact .nil
  | null _ ih => exact .null ih
  | text hf _ ih => exact .text hf ih
  | single hd _ ih =>
    refine .single ?_ ih
    cases hd with
    | str hf hn => exact .str hf hn
    | special hf hn => exact .special hf hn
    | sign hn => exact .sign hn
    | group hk hx hn => exact .group hk hx hn
    | ref hn => exact .ref hn
  | @slice xs vs g h hx _ i1 i2 =>
    cases xs with
    | nil => cases hx; exact .null i2
    | cons e xs =>
      refine .slice ?_ i2
      exact Draws.of_eq (mid_draws i1 .nil flat_nil) (by simp)

theorem merge_raw {es : List Any} {h : Text} (he : Raw u es h) : Draws u (Walk.merge es) h := by
  exact Draws.of_eq (mid_draws (raw_inners he) .nil flat_nil) (by simp)

theorem draws_kinds {es : List Any} {h : Text} (he : Draws u es h) : ∀ e ∈ es, ∀ n, e = .leaf n → 10 ≤ n := by
  induction he with
  | nil => intro e h; cases h
  | @sign s _ _ _ ih =>
    intro e he n hn
    rcases List.mem_cons.mp he with rfl | he
    · cases hn; cases s <;> decide
    · exact ih e he n hn
  | str _ _ ih =>
    intro e he n hn
    rcases List.mem_cons.mp he with rfl | he
    · cases hn
    · exact ih e he n hn
  | special _ _ ih =>
    intro e he n hn
    rcases List.mem_cons.mp he with rfl | he
    · cases hn
    · exact ih e he n hn
  | group _ _ _ _ ih =>
    intro e he n hn
    rcases List.mem_cons.mp he with rfl | he
    · cases hn
    · exact ih e he n hn
  | ref _ ih =>
    intro e he n hn
    rcases List.mem_cons.mp he with rfl | he
    · cases hn
    · exact ih e he n hn

/-- types.go:1859-1870: the elements of a text. -/
theorem inline_raw {es : List Any} {h : Text} (he : Raw u es h) : ∃ xs, newInlineElements es = some (.slice xs) ∧ Draws u xs h := by
  have hd := merge_raw (Raw.slice he .nil)
  rw [List.append_nil] at hd
  refine ⟨_, ?_, hd⟩
  unfold newInlineElements
  rw [if_neg]
  rw [Bool.not_eq_true, List.any_eq_false]
  intro e hm
  cases e with
  | leaf n =>
    have := draws_kinds hd _ hm n rfl
    simp only [decide_eq_true_eq]
    omega
  | _ => simp

theorem quoted_raw {k : Nat} (hk : k < 6) {v : Any} {h : Text} (he : Raw u [v] h) : Draws u [newQuotedText k v] (tagged (kindTag k) h) := by
  have hd := merge_raw (Raw.slice he .nil)
  rw [List.append_nil] at hd
  have := Draws.group hk hd .nil
  rwa [List.append_nil] at this

end C65
end Verif
