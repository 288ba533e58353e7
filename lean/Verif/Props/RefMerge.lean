import Verif.Props.RefText

/-!
# C67 — merging the parts of a text with references, and the whole text
-/
namespace Verif
namespace C67
open Peg Grammar Actions Referenced
open PlainText (Plain isSpecial)
open Walk (Any)
open Subs (Sub)
open C58 (Piece)

variable {σ : Type} {S : Sem σ} {A : Peg.Code σ} {t : Text}

/-! ### Merging -/

/-- Text before elements. -/
def consBuf (w : Text) : List Any → List Any
  | [] => Walk.flush w
  | .str u :: es => .str (w ++ u) :: es
  | e :: es => Walk.flush w ++ e :: es

/-- An element before merged elements. -/
def consV : Any → List Any → List Any
  | .text w, es => consBuf w es
  | .str w, es => consBuf w es
  | v, es => v :: es

def norm (vs : List Any) : List Any := vs.foldr consV []

/-- The elements of a text. -/
def elems (ts : List Tok) : List Any := norm (ts.map value)

/-- Elements that are not merged with others in other ways. -/
inductive Flat : Any → Prop
  | text {w : Text} : Flat (.text w)
  | str {w : Text} : Flat (.str w)
  | special {w : Text} : Flat (.special w)
  | ref {n : String} : Flat (.ref n)
  | counter {n : String} {v : Option AttrRefs.CVal} {h : Bool} : Flat (.counter n v h)

theorem consBuf_nil : ∀ es, (∀ w, .str w ∈ es → w ≠ []) → consBuf [] es = es
  | [], _ => rfl
  | e :: es, _ => by cases e <;> rfl

theorem consBuf_empty : ∀ es, consBuf [] es = es
  | [] => rfl
  | e :: es => by cases e <;> rfl

theorem consBuf_append (a b : Text) : ∀ es, consBuf (a ++ b) es = consBuf a (consBuf b es)
  | [] => by
    cases b with
    | nil => rw [List.append_nil]; rfl
    | cons c b =>
      show Walk.flush _ = consBuf a [.str (c :: b)]
      unfold Walk.flush
      rw [if_neg (by simp)]; rfl
  | e :: es => by
    cases b with
    | nil => rw [List.append_nil, consBuf_empty]
    | cons c b => cases e <;> first
      | (show _ = consBuf a (.str (c :: b) :: _ :: es)
         show Walk.flush _ ++ _ :: es = _
         unfold Walk.flush
         rw [if_neg (by simp)]; rfl)
      | (show Any.str _ :: es = Any.str _ :: es
         rw [List.append_assoc])

theorem flush_cons {e : Any} (h : ∀ w, e ≠ .str w) (buf : Text) (es : List Any) : Walk.flush buf ++ e :: es = consBuf buf (e :: es) := by
  cases e <;> first | rfl | exact absurd rfl (h _)

theorem merged {vs : List Any} (h : ∀ v ∈ vs, Flat v) : ∀ (res : List Any) (buf : Text),
    Walk.mergeLoop res buf vs = res ++ consBuf buf (norm vs) ∧ Walk.flatLoop res buf vs = res ++ consBuf buf (norm vs) := by
  induction vs with
  | nil => intro res buf; exact ⟨rfl, rfl⟩
  | cons v vs ih =>
    intro res buf
    have ih := ih (fun x hx => h x (List.mem_cons_of_mem _ hx))
    have other : ∀ e : Any, (∀ w, e ≠ .str w) → norm (e :: vs) = e :: norm vs →
        Walk.mergeLoop (res ++ Walk.flush buf ++ [e]) [] vs = res ++ consBuf buf (norm (e :: vs)) ∧
        Walk.flatLoop (res ++ Walk.flush buf ++ [e]) [] vs = res ++ consBuf buf (norm (e :: vs)) := by
      intro e he hn
      have := ih (res ++ Walk.flush buf ++ [e]) []
      rw [consBuf_empty] at this
      rw [hn, ← flush_cons he]
      simpa [List.append_assoc] using this
    cases h v List.mem_cons_self with
    | @text w =>
      have := ih res (buf ++ w)
      rw [consBuf_append] at this
      exact this
    | @str w =>
      have := ih res (buf ++ w)
      rw [consBuf_append] at this
      exact this
    | special => exact other _ (fun _ h => nomatch h) rfl
    | ref => exact other _ (fun _ h => nomatch h) rfl
    | counter => exact other _ (fun _ h => nomatch h) rfl

theorem norm_consBuf (w : Text) : ∀ es, norm (consBuf w es) = consBuf w (norm es)
  | [] => by
    show norm (Walk.flush w) = Walk.flush w
    unfold Walk.flush
    by_cases hw : w = []
    · rw [if_pos hw]; rfl
    · rw [if_neg hw]
      show Walk.flush w = _
      unfold Walk.flush; rw [if_neg hw]
  | e :: es => by
    have other : ∀ e : Any, norm (Walk.flush w ++ e :: es) = consBuf w (norm (e :: es)) := by
      intro e
      unfold Walk.flush
      by_cases hw : w = []
      · rw [if_pos hw, hw, consBuf_empty]; rfl
      · rw [if_neg hw]; rfl
    cases e <;> first | exact other _ | (show consBuf (w ++ _) (norm es) = consBuf w (consBuf _ (norm es)); rw [consBuf_append])

theorem norm_norm : ∀ vs, (∀ v ∈ vs, Flat v) → norm (norm vs) = norm vs
  | [], _ => rfl
  | v :: vs, h => by
    have ih := norm_norm vs (fun x hx => h x (List.mem_cons_of_mem _ hx))
    cases h v List.mem_cons_self with
    | @text w => show norm (consBuf w (norm vs)) = consBuf w (norm vs); rw [norm_consBuf, ih]
    | @str w => show norm (consBuf w (norm vs)) = consBuf w (norm vs); rw [norm_consBuf, ih]
    | special => show _ :: norm (norm vs) = _ :: norm vs; rw [ih]
    | ref => show _ :: norm (norm vs) = _ :: norm vs; rw [ih]
    | counter => show _ :: norm (norm vs) = _ :: norm vs; rw [ih]

theorem flat_flush (w : Text) : ∀ v ∈ Walk.flush w, Flat v := by
  unfold Walk.flush
  intro v hv
  by_cases hw : w = []
  · rw [if_pos hw] at hv; cases hv
  · rw [if_neg hw] at hv; rw [List.mem_singleton.mp hv]; exact .str

theorem flat_consBuf {w : Text} : ∀ {es : List Any}, (∀ v ∈ es, Flat v) → ∀ v ∈ consBuf w es, Flat v
  | [], _, v, hv => flat_flush w v hv
  | e :: es, h, v, hv => by
    have other : v ∈ Walk.flush w ++ e :: es → Flat v := fun hv => (List.mem_append.mp hv).elim (flat_flush w v) (h v)
    cases e <;> first
      | exact other hv
      | (rcases List.mem_cons.mp hv with rfl | hv
         · exact .str
         · exact h v (List.mem_cons_of_mem _ hv))

theorem flat_norm : ∀ {vs : List Any}, (∀ v ∈ vs, Flat v) → ∀ v ∈ norm vs, Flat v
  | [], _, v, hv => nomatch hv
  | x :: vs, h, v, hv => by
    have ih := flat_norm (vs := vs) (fun x hx => h x (List.mem_cons_of_mem _ hx))
    have hx := h x List.mem_cons_self
    have other : v ∈ x :: norm vs → Flat v := fun hv => (List.mem_cons.mp hv).elim (fun e => e ▸ hx) (ih v)
    cases hx <;> first | exact other hv | exact flat_consBuf ih v hv

theorem inners_flat : ∀ {vs : List Any}, (∀ v ∈ vs, Flat v) → Walk.inners vs = vs
  | [], _ => rfl
  | x :: vs, h => by
    have ih := inners_flat (vs := vs) (fun x hx => h x (List.mem_cons_of_mem _ hx))
    show Walk.inner x :: Walk.inners vs = x :: vs
    rw [ih]
    cases h x List.mem_cons_self <;> rfl

theorem merge_flat {vs : List Any} (h : ∀ v ∈ vs, Flat v) : Walk.merge vs = norm vs := by
  unfold Walk.merge
  rw [inners_flat h, (merged h [] []).1, consBuf_empty]; rfl

theorem merge_slice {vs : List Any} (h : ∀ v ∈ vs, Flat v) : Walk.merge [.slice vs] = norm vs := by
  have h1 : Walk.mergeLoop [] [] (Walk.inners vs) = norm vs := merge_flat h
  cases vs with
  | nil => exact h1
  | cons v vs =>
    show Walk.mergeLoop [] [] [.slice (Walk.mergeLoop [] [] (Walk.inners (v :: vs)))] = _
    rw [h1]
    have h2 := (merged (flat_norm h) [] []).2
    rw [consBuf_empty, norm_norm _ h] at h2
    show Walk.flatLoop [] [] (norm (v :: vs)) ++ [] = norm (v :: vs)
    rw [List.append_nil]
    exact h2

theorem code_group {vs : List Any} (h : ∀ v ∈ vs, Flat v) : newInlineElements vs = some (.slice (norm vs)) := by
  unfold newInlineElements
  rw [merge_slice h, if_neg]
  rw [Bool.not_eq_true, List.any_eq_false]
  intro v hv
  cases flat_norm h v hv <;> simp

/-! ### What the elements stand for -/

/-- An element stands for a part of the text. -/
def Stands (ts : List Tok) (v : Any) : Prop := Flat v ∧ ∀ es, consV v es = (ts.map value).foldr consV es

theorem stands_text {w : Text} (h : ∀ c ∈ w, isSpecial c = false) (es : List Any) : consBuf w es = ((w.map Tok.char).map value).foldr consV es := by
  induction w with
  | nil => exact consBuf_empty es
  | cons c w ih =>
    have ih := ih (fun d hd => h d (List.mem_cons_of_mem _ hd))
    have hv : value (.char c) = .str [c] := by
      show (if isSpecial c = true then _ else _) = _
      rw [if_neg (by rw [h c List.mem_cons_self]; decide)]
    show _ = consV (value (.char c)) _
    rw [hv, ← ih]
    show _ = consBuf [c] _
    rw [← consBuf_append]; rfl

theorem stands_piece {w : Text} {v : Any} (h : Piece true w v) : Stands (w.map .char) v := by
  cases h with
  | text h => exact ⟨.text, stands_text (fun c hc => by simpa using h c hc)⟩
  | str h => exact ⟨.str, stands_text (fun c hc => by simpa using h c hc)⟩
  | @special c h =>
    refine ⟨.special, fun es => ?_⟩
    show _ = consV (value (.char c)) es
    have hv : value (.char c) = .special [c] := if_pos (by simpa using h)
    rw [hv]

theorem stands_value (x : Tok) : Stands [x] (value x) := by
  refine ⟨?_, fun es => rfl⟩
  cases x with
  | char c =>
    show Flat (if isSpecial c = true then _ else _)
    split
    · exact .special
    · exact .str
  | ref n => exact .ref
  | kept n => exact .str
  | count n => exact .counter
  | step n => exact .counter

/-- Elements stand for a text. -/
inductive Parts : List Tok → List Any → Prop
  | nil : Parts [] []
  | cons {a b : List Tok} {v : Any} {vs : List Any} : Stands a v → Parts b vs → Parts (a ++ b) (v :: vs)

theorem parts_flat {ts : List Tok} {vs : List Any} (h : Parts ts vs) : ∀ v ∈ vs, Flat v := by
  induction h with
  | nil => exact fun _ h => nomatch h
  | cons h _ ih =>
    intro v hv
    rcases List.mem_cons.mp hv with rfl | hv
    · exact h.1
    · exact ih v hv

theorem parts_norm {ts : List Tok} {vs : List Any} (h : Parts ts vs) : norm vs = elems ts := by
  induction h with
  | nil => rfl
  | @cons a b v vs h _ ih =>
    show consV v (norm vs) = _
    rw [ih, h.2]
    unfold elems norm
    rw [List.map_append, List.foldr_append]

/-! ### The loop -/

theorem split_free {w u : Text} : ∀ {ts : List Tok}, written ts = w ++ u → (∀ c ∈ w, opens c = false) → ∃ ts', ts = w.map .char ++ ts' ∧ u = written ts' := by
  induction w with
  | nil => intro ts h _; exact ⟨ts, rfl, h.symm⟩
  | cons c w ih =>
    intro ts h hw
    cases ts with
    | nil => cases h
    | cons x ts =>
      have h : x.written ++ written ts = c :: (w ++ u) := h
      by_cases hx : ∃ d, x = .char d
      · obtain ⟨d, rfl⟩ := hx
        have h : d :: written ts = c :: (w ++ u) := h
        obtain ⟨rfl, h3⟩ := List.cons.inj h
        obtain ⟨ts', rfl, hu⟩ := ih h3 (fun d hd => hw d (List.mem_cons_of_mem _ hd))
        exact ⟨ts', rfl, hu⟩
      · obtain ⟨d, v, hv, ho⟩ := opening x (fun c hc => hx ⟨c, hc⟩)
        rw [hv] at h
        obtain ⟨rfl, _⟩ := List.cons.inj h
        rw [hw d List.mem_cons_self] at ho; cases ho

/-- The beginning of the text was taken as one element. -/
def Taken (ts : List Tok) (o : Option (List Any × Text)) : Prop :=
  ∃ a b v, o = some ([v], written b) ∧ ts = a ++ b ∧ a ≠ [] ∧ Stands a v

variable {c : Char}

theorem gives_tok (hS : C45.ChecksProgress S) (hA : Obeys A) (hE : Enabled S Subs.normal) (hC : Ascii S) {x : Tok} {ts : List Tok}
    (hx : ∀ y ∈ x :: ts, y.Ok (C59.alnum S)) (ht : Plain others (written (x :: ts))) :
    Gives grammar S A C58.normalElement (written (x :: ts)) (fun o => o = none ∨ Taken (x :: ts) o) := by
  by_cases hn : ∃ d, x = .char d
  · obtain ⟨d, rfl⟩ := hn
    have hok := hx _ List.mem_cons_self
    have ho : opens d = false := by simpa [opens, Tok.Ok] using hok
    refine (gives_char hS hA hE hC (c := d) (t := written ts) ht ho).mono (fun o h => ?_)
    rcases h with rfl | ⟨w, u, v, rfl, e, hw, hp, hf⟩
    · exact .inl rfl
    · obtain ⟨ts', hts, rfl⟩ := split_free (ts := .char d :: ts) e hf
      exact .inr ⟨w.map .char, ts', v, rfl, hts, by simpa using hw, stands_piece hp⟩
  · intro st s r hr
    have := exactly_reference hS hA hE hC (x := x) (hx _ List.mem_cons_self) (fun c hc => hn ⟨c, hc⟩) (u := written ts) (st := st) ht s r hr
    exact .inr ⟨[x], ts, value x, this, rfl, List.cons_ne_nil _ _, stands_value x⟩

theorem written_ne (x : Tok) (ts : List Tok) : ∃ c t, written (x :: ts) = c :: t := by
  cases x with
  | char c => exact ⟨_, _, rfl⟩
  | ref n => exact ⟨_, _, rfl⟩
  | kept n => exact ⟨_, _, rfl⟩
  | count n => exact ⟨_, _, rfl⟩
  | step n => exact ⟨_, _, rfl⟩

/-- One element of a group. -/
theorem gives_element (hS : C45.ChecksProgress S) (hA : Obeys A) (hE : Enabled S Subs.normal) (hC : Ascii S) {x : Tok} {ts : List Tok}
    (hx : ∀ y ∈ x :: ts, y.Ok (C59.alnum S)) (ht : Plain others (written (x :: ts))) :
    Gives grammar S A (.act 370 (.scope (.seq (.rule R.NotEOF) C58.normalElement))) (written (x :: ts)) (Taken (x :: ts)) := by
  have he := gives_tok hS hA hE hC hx ht
  obtain ⟨c, t, hct⟩ := written_ne x ts
  rw [hct] at he ⊢
  have hs := C58.sure_normalElement (S := S) (c := c) (t := t)
  refine gives_act (P := fun o => ∃ a b v, o = some ([.slice [.nil, v]], written b) ∧ x :: ts = a ++ b ∧ a ≠ [] ∧ Stands a v)
    (gives_scope (P := fun o => ∃ a b v, o = some ([.nil, v], written b) ∧ x :: ts = a ++ b ∧ a ≠ [] ∧ Stands a v)
      (gives_seq (P := fun o => o = some ([.nil], c :: t)) ?_ (fun h => nomatch h) ?_) ?_ ?_) ?_ ?_
  · refine gives_rule ?_
    intro st s r hr
    rcases gives_andP _ _ _ hr with h | h
    · have := yields_andP (G := grammar) (S := S) (yields_any_cons (t := t) (c := c)).sure _ _ _ hr.erase
      rw [ResV.out_rest, h] at this; cases this
    · exact h
  · intro v u hv
    cases hv
    refine (he.and_sure hs).mono (fun o ho => ?_)
    obtain ⟨rfl | ⟨w, u, v, rfl, h2, h3, h4⟩, hn⟩ := ho
    · exact absurd rfl hn
    · exact ⟨w, u, v, rfl, h2, h3, h4⟩
  · rintro ⟨w, u, v, h, _⟩; cases h
  · rintro v u ⟨w, u', v', h, h2⟩; cases h; exact ⟨w, u', v', rfl, h2⟩
  · rintro ⟨w, u, v, h, _⟩; cases h
  · rintro s v u ⟨w, u', v', h, h2⟩
    cases h
    exact ⟨w, u', v', by rw [hA 370 s _ _ _ rfl], h2⟩

theorem written_append (a b : List Tok) : written (a ++ b) = written a ++ written b := List.flatMap_append

theorem gives_loop (hS : C45.ChecksProgress S) (hA : Obeys A) (hE : Enabled S Subs.normal) (hC : Ascii S) : ∀ ts : List Tok,
    (∀ y ∈ ts, y.Ok (C59.alnum S)) → Plain others (written ts) →
    Gives grammar S A (.star (.act 370 (.scope (.seq (.rule R.NotEOF) C58.normalElement)))) (written ts)
      (fun o => ∃ vs, o = some ([.slice vs], []) ∧ Parts ts vs) := by
  intro ts hx ht
  induction hl : ts.length using Nat.strongRecOn generalizing ts with
  | ind n ih =>
    cases ts with
    | nil =>
      exact gives_star (P := fun o => o = none) (gives_never C58.never_element_nil rfl) (fun _ => ⟨[], rfl, .nil⟩) (fun v u h => nomatch h)
    | cons x ts =>
      refine gives_star (gives_element hS hA hE hC hx ht) (fun h => ?_) (fun v u h => ?_)
      · obtain ⟨w, u, v, h, _⟩ := h; cases h
      · obtain ⟨a, b, v', h, h2, h3, h4⟩ := h
        cases h
        have hu : Plain others (written b) := C58.plain_suffix ht ⟨written a, by rw [h2, written_append]⟩
        refine (ih b.length ?_ b (fun y hy => hx y (by rw [h2]; exact List.mem_append_right _ hy)) hu rfl).mono (fun o ho => ?_)
        · have hlen := congrArg List.length h2
          have : 0 < a.length := List.length_pos_iff.mpr h3
          simp only [List.length_append] at hlen
          omega
        · obtain ⟨vs, rfl, hv⟩ := ho
          exact ⟨v' :: vs, rfl, h2 ▸ .cons h4 hv⟩

/-- The whole text. -/
theorem gives_group (hS : C45.ChecksProgress S) (hA : Obeys A) (hE : Enabled S Subs.normal) (hC : Ascii S) {x : Tok} {ts : List Tok}
    (hx : ∀ y ∈ x :: ts, y.Ok (C59.alnum S)) (ht : Plain others (written (x :: ts))) :
    Gives grammar S A (.rule R.NormalGroup) (written (x :: ts)) (fun o => o = some ([.slice (elems (x :: ts))], [])) := by
  have hstar := gives_loop hS hA hE hC
  refine gives_rule (gives_act (P := fun o => ∃ vs, o = some ([.slice [.slice vs, .nil]], []) ∧ Parts (x :: ts) vs)
    (gives_scope (P := fun o => ∃ vs, o = some ([.slice vs, .nil], []) ∧ Parts (x :: ts) vs)
      (gives_seq (P := fun o => ∃ vs, o = some ([.slice vs], []) ∧ Parts (x :: ts) vs)
        (gives_plus (gives_element hS hA hE hC hx ht) (fun h => ?_) (fun v u h => ?_)) ?_ ?_) ?_ ?_) ?_ ?_)
  · obtain ⟨w, u, v, h, _⟩ := h; cases h
  · obtain ⟨a, b, v', h, h2, h3, h4⟩ := h
    cases h
    refine (hstar b (fun y hy => hx y (by rw [h2]; exact List.mem_append_right _ hy))
      (C58.plain_suffix ht ⟨written a, by rw [h2, written_append]⟩)).mono (fun o ho => ?_)
    obtain ⟨vs, rfl, hv⟩ := ho
    exact ⟨v' :: vs, rfl, h2 ▸ .cons h4 hv⟩
  · rintro ⟨vs, h, _⟩; cases h
  · rintro v u ⟨vs, h, hv⟩
    cases h
    refine (gives_rule (gives_notP_never (e := .any) (fun st s r h => ?_))).mono (fun o ho => ?_)
    · exact yields_any_nil st s r h
    · cases ho; exact ⟨vs, rfl, hv⟩
  · rintro ⟨vs, h, _⟩; cases h
  · rintro v u ⟨vs, h, hv⟩; cases h; exact ⟨vs, rfl, hv⟩
  · rintro ⟨vs, h, _⟩; cases h
  · rintro s v u ⟨vs, h, hv⟩
    cases h
    rw [hA 371 s _ _ _ (show code 371 [.slice [.slice vs, .nil]] _ = _ from code_group (parts_flat hv)), parts_norm hv]

/-- The parser's result for a text with references. -/
theorem parsed (hS : C45.ChecksProgress S) (hA : Obeys A) (hE : Enabled S Subs.normal) (hC : Ascii S) {ts : List Tok} (hne : ts ≠ [])
    (hx : ∀ y ∈ ts, y.Ok (C59.alnum S)) (ht : Plain others (written ts)) {s : σ} {n : Nat} {r : ResV σ}
    (h : runV grammar S A n (.rule R.NormalGroup) (written ts) s (written ts) = some r) : ∃ s', r = .ok s' [.slice (elems ts)] [] := by
  obtain ⟨x, ts, rfl⟩ := List.exists_cons_of_ne_nil hne
  have hg : r.out = some ([.slice (elems (x :: ts))], []) := gives_group hS hA hE hC hx ht _ _ _ ⟨n, h⟩
  cases r with
  | fail s1 => cases hg
  | ok s1 v u => cases hg; exact ⟨s1, rfl⟩

end C67
end Verif
