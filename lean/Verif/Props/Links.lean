import Verif.Spec.Links
import Verif.Props.Tables
import Verif.Props.Escape
/-! C78: links lead to the address that is written. -/
namespace Verif.C78
open Rend (AV El Attrs Lib M)
open Links
open C77 (text_step out_step cond_step done_step)

variable {L : Lib}

/-! ### Templates -/

theorem flag_step {lower : Text → Text} {env : Tmpl.Env} {k a : Tmpl.Tm} {t u : Text} {b : Bool} {f : String} (hf : env.get f = some (.flag b)) (ha : a.render lower env = some u)
    (h : k.render lower env = some t) : (Tmpl.Tm.cond (.is f) a .done k).render lower env = some ((if b then u else []) ++ t) := by
  show ((env.get f).map Tmpl.Val.truth).bind _ = _
  rw [hf]
  cases b with
  | false =>
    show (some []).bind (fun t => (k.render lower env).map (t ++ ·)) = _
    rw [h]
    rfl
  | true =>
    show (a.render lower env).bind (fun t => (k.render lower env).map (t ++ ·)) = _
    rw [ha, h]
    rfl

theorem link_written (hL : L.tmpl.link = Tmpl.Html5.linkTmpl) (id url label cls target : Text) (apart : Bool) (c : Rend.Ctx) :
    Rend.exec L (·.link) [("ID", .str id), ("URL", .str url), ("Text", .str label), ("Class", .str cls), ("Target", .str target), ("NoOpener", .flag apart)] c =
    .ok ("<a".toList ++ given "id" id ++ given "href" url ++ given "class" cls ++ given "target" target ++ (if apart then " rel=\"noopener\"".toList else []) ++ ">".toList ++ label ++
      "</a>".toList, c) := by
  unfold Rend.exec
  dsimp only
  generalize he : ([("ID", .str id), ("URL", .str url), ("Text", .str label), ("Class", .str cls), ("Target", .str target), ("NoOpener", .flag apart)] : Tmpl.Env) = env
  have g1 : AMap.get env "ID" = some (.str id) := by rw [← he]; rfl
  have g2 : AMap.get env "URL" = some (.str url) := by rw [← he]; rfl
  have g3 : AMap.get env "Text" = some (.str label) := by rw [← he]; rfl
  have g4 : AMap.get env "Class" = some (.str cls) := by rw [← he]; rfl
  have g5 : AMap.get env "Target" = some (.str target) := by rw [← he]; rfl
  have g6 : AMap.get env "NoOpener" = some (.flag apart) := by rw [← he]; rfl
  have h := text_step (lower := L.lower) (env := env) "<a" <|
    cond_step g1 (fun _ => text_step " id=\"" <| out_step g1 <| text_step "\"" done_step) <|
    cond_step g2 (fun _ => text_step " href=\"" <| out_step g2 <| text_step "\"" done_step) <|
    cond_step g4 (fun _ => text_step " class=\"" <| out_step g4 <| text_step "\"" done_step) <|
    cond_step g5 (fun _ => text_step " target=\"" <| out_step g5 <| text_step "\"" done_step) <|
    flag_step g6 (text_step " rel=\"noopener\"" done_step) <|
    text_step ">" <| out_step g3 <| text_step "</a>" done_step
  rw [hL]
  unfold Tmpl.Html5.linkTmpl
  rw [h]
  show Except.ok (_, c) = _
  unfold given
  simp only [List.append_assoc, List.append_nil]
  change @Eq _ _ _
  kernel_rfl

/-! ### Attributes -/

theorem text_given (sp : AV → Text) {a : Attrs} {k : String} (h : ∀ v, AMap.get a k = some v → ∃ t, v = .str t) : Rend.getStrD sp a k [] = text a k := by
  unfold Rend.getStrD text
  cases hk : AMap.get a k with
  | none => rfl
  | some v =>
    obtain ⟨t, rfl⟩ := h v hk
    rfl

theorem joined : ∀ l : List Text, Rend.joinWith " ".toList l = spaced l
  | [] => rfl
  | [_] => rfl
  | t :: u :: l => by
    show t ++ " ".toList ++ Rend.joinWith " ".toList (u :: l) = t ++ ' ' :: spaced (u :: l)
    rw [joined (u :: l), List.append_assoc]
    rfl

theorem roles_shown (re : El → M Text) (c : Rend.Ctx) : ∀ l : List Text, Rend.rolesAll re (l.map .str) c = .ok (l, c)
  | [] => rfl
  | t :: l => by
    show M.bind (Rend.rolesAll re (l.map .str)) _ c = _
    unfold M.bind
    rw [roles_shown re c l]
    rfl

theorem roles_given {x : Link} {roles : List Text} (h : Stated x roles) (re : El → M Text) (c : Rend.Ctx) : Rend.elementRoles re x.attrs c = .ok (spaced roles, c) := by
  unfold Rend.elementRoles
  show M.bind (Rend.rolesOf re x.attrs) _ c = _
  have e : Rend.rolesOf re x.attrs c = .ok (roles, c) := by
    unfold Rend.rolesOf
    rcases h.ofRoles with ⟨h0, h⟩ | h
    · rw [h, h0]; rfl
    · rw [h]; exact roles_shown re c roles
  unfold M.bind
  rw [e, ← joined]
  rfl

theorem spaced_ne {l : List Text} (h : l ≠ []) (hl : ∀ r ∈ l, r ≠ []) : spaced l ≠ [] := by
  match l with
  | [] => exact absurd rfl h
  | [w] => exact hl w List.mem_cons_self
  | w :: u :: l => exact fun e => hl w List.mem_cons_self (List.append_eq_nil_iff.mp e).1

theorem bare_classes {x : Link} {roles : List Text} (h : Stated x roles) (hb : x.label = .bare) :
    Rend.bareClass (some (.loc x.place x.scheme (.str x.path))) (spaced roles) = spaced (classes x roles) := by
  show (if (spaced roles).isEmpty then (if x.scheme = "mailto:".toList then [] else "bare".toList) else (if x.scheme = "mailto:".toList then [] else "bare".toList) ++ " ".toList ++ spaced roles) = _
  unfold classes
  rw [hb]
  dsimp only
  by_cases hm : x.scheme = "mailto:".toList
  · rw [if_pos hm, if_pos hm, h.mail hm hb]
    rfl
  · rw [if_neg hm, if_neg hm]
    cases roles with
    | nil => rfl
    | cons r l =>
      have : (spaced (r :: l)).isEmpty = false := by
        cases hs : spaced (r :: l) with
        | nil => exact absurd hs (spaced_ne (List.cons_ne_nil _ _) h.named)
        | cons _ _ => rfl
      rw [this]
      show ("bare".toList ++ " ".toList) ++ spaced (r :: l) = "bare".toList ++ ' ' :: spaced (r :: l)
      rw [List.append_assoc]
      rfl

/-! ### Links -/

/-- The label, if it has inline elements, is rendered as stated. -/
def Renders (re : El → M Text) (c : Rend.Ctx) : Label → Prop
  | .marked els t => Rend.renderInline re els c = .ok (t, c)
  | _ => True

theorem label_shown {x : Link} {roles : List Text} (h : Stated x roles) {re : El → M Text} {c : Rend.Ctx} (hc : c.prefixes.lookup x.place = none) (hr : Renders re c x.label) :
    Rend.linkText re (some (.loc x.place x.scheme (.str x.path))) x.attrs (Rend.displayOf L c (some (.loc x.place x.scheme (.str x.path)))) (spaced roles) c =
      .ok ((shown Escape.escapeString x, spaced (classes x roles)), c) := by
  unfold Rend.linkText
  cases hx : x.label with
  | bare =>
    rw [show AMap.get x.attrs "text" = none by rw [h.label, hx]]
    show Except.ok (_, c) = _
    rw [bare_classes h hx]
    show Except.ok ((Escape.escapeString (((if x.scheme = "mailto:".toList then [] else x.scheme) ++ (c.prefixes.lookup x.place).getD []) ++ x.path), _), c) = _
    rw [hc]
    unfold shown Link.address
    rw [hx]
    dsimp only [Option.getD]
    rw [List.append_nil]
    split <;> rfl
  | plain t =>
    rw [show AMap.get x.attrs "text" = some (.str t) by rw [h.label, hx]]
    unfold shown classes
    rw [hx]
    rfl
  | marked els t =>
    rw [show AMap.get x.attrs "text" = some (.els els) by rw [h.label, hx]]
    rw [hx] at hr
    show M.bind (Rend.renderInline re els) _ c = _
    unfold M.bind
    rw [show Rend.renderInline re els c = .ok (t, c) from hr]
    unfold shown classes
    rw [hx]
    rfl

/-- A link is written as stated. -/
theorem link_to_page (hL : L.tmpl.link = Tmpl.Html5.linkTmpl) {x : Link} {roles : List Text} (h : Stated x roles) {n : Nat} {c : Rend.Ctx} (hc : c.prefixes.lookup x.place = none)
    (hr : Renders (Rend.renderElement L n) c x.label) :
    Rend.renderElement L (n + 1) x.element c = .ok (html Escape.escapeString x roles, c) := by
  show M.bind (Rend.elementRoles (Rend.renderElement L n) x.attrs) _ c = _
  unfold M.bind
  rw [roles_given h]
  show M.bind (Rend.linkText (Rend.renderElement L n) (some (.loc x.place x.scheme (.str x.path))) x.attrs
    (Rend.displayOf L c (some (.loc x.place x.scheme (.str x.path)))) (spaced roles)) _ c = _
  unfold M.bind
  rw [label_shown h hc hr]
  dsimp only
  rw [text_given L.sprint (h.text "id" (by decide +kernel)), text_given L.sprint (h.text "window" (by decide +kernel))]
  refine (link_written hL _ _ _ _ _ _ c).trans ?_
  have hu : Rend.urlOf L c (some (.loc x.place x.scheme (.str x.path))) = x.address := by
    show x.scheme ++ (c.prefixes.lookup x.place).getD [] ++ x.path = _
    rw [hc]
    show x.scheme ++ [] ++ x.path = _
    rw [List.append_nil]
    rfl
  rw [hu]
  unfold html apart
  rw [show (text x.attrs "window" == "_blank".toList) = decide (text x.attrs "window" = "_blank".toList) by
    rw [Bool.eq_iff_iff, beq_iff_eq, decide_eq_true_iff]]

/-- What a browser reads as the address is the address that is written; the attribute ends where it should. -/
theorem leads (num : Text → Option Char) (h39 : num "39".toList = some '\'') (h34 : num "34".toList = some '"') (x : Link) (roles : List Text) (ha : x.address ≠ []) :
    ∃ before href after, html Escape.escapeString x roles = before ++ " href=\"".toList ++ href ++ "\"".toList ++ after ∧ '"' ∉ href ∧
      Entities.decode num href = Entities.decode num x.address ∧
      ((∀ a b, x.address = a ++ '&' :: b → Entities.refAhead b = false) → Entities.decode num href = x.address) := by
  have hne : Escape.escapeString x.address ≠ [] := by
    intro e
    rw [C27.escape_esc] at e
    cases hx : x.address with
    | nil => exact ha hx
    | cons d t =>
      rw [hx] at e
      have h1 : C27.esc1 d t ≠ [] := by
        unfold C27.esc1
        repeat' split
        all_goals first | exact List.cons_ne_nil _ _ | decide
      exact h1 (List.append_eq_nil_iff.mp e).1
  refine ⟨"<a".toList ++ given "id" (text x.attrs "id"), Escape.escapeString x.address, given "class" (spaced (classes x roles)) ++ given "target" (text x.attrs "window") ++
    (if apart x then " rel=\"noopener\"".toList else []) ++ ">".toList ++ shown Escape.escapeString x ++ "</a>".toList, ?_, fun hm => (C27.no_markup _ _ hm).2.2.2 rfl,
    C27.meaning_kept num h39 h34 _, C27.recovered num h39 h34 _⟩
  unfold html
  rw [show given "href" (Escape.escapeString x.address) = " href=\"".toList ++ Escape.escapeString x.address ++ "\"".toList by
    unfold given
    rw [if_neg hne]
    change @Eq _ _ _
    kernel_rfl]
  simp only [List.append_assoc]

/-- A page that opens in another window may not know of this one. -/
theorem another_window {x : Link} (h : text x.attrs "window" = "_blank".toList) (esc : Text → Text) (roles : List Text) :
    ∃ before after, html esc x roles = before ++ " rel=\"noopener\"".toList ++ after := by
  have ha : apart x = true := by
    unfold apart
    rw [h]
    simp
  unfold html
  rw [ha]
  refine ⟨"<a".toList ++ given "id" (text x.attrs "id") ++ given "href" (esc x.address) ++ given "class" (spaced (classes x roles)) ++ given "target" (text x.attrs "window"),
    ">".toList ++ shown esc x ++ "</a>".toList, ?_⟩
  simp only [List.append_assoc, if_true]

/-! ### Other documents -/

theorem ext_of {base ext : Text} (h : ∀ d ∈ ext, d ≠ '.' ∧ d ≠ '/') : Rend.fileExt (base ++ '.' :: ext) = '.' :: ext := by
  have hp : ∀ d ∈ ext.reverse, (!(d == '.' || d == '/')) = true := by
    intro d hd
    obtain ⟨h1, h2⟩ := h d (List.mem_reverse.mp hd)
    simp [h1, h2]
  unfold Rend.fileExt
  have e : (base ++ '.' :: ext).reverse = ext.reverse ++ '.' :: base.reverse := by simp
  rw [e, List.takeWhile_append_of_pos hp, List.dropWhile_append_of_pos hp]
  simp

/-- A reference to another document leads to the page that is made of it. -/
theorem other_document (hL : L.tmpl.externalCrossReference = Tmpl.Html5.externalCrossReferenceTmpl) {base ext : Text} (h : ∀ d ∈ ext, d ≠ '.' ∧ d ≠ '/') {place n : Nat} {c : Rend.Ctx}
    (hc : c.prefixes.lookup place = none) {a : Attrs} {label : Text} (hl : AMap.get a "xrefLabel" = some (.str label) ∨ AMap.get a "xrefLabel" = none ∧ label = base ++ ".html".toList) :
    Rend.renderElement L (n + 1) (.extXref (some (.loc place [] (.str (base ++ '.' :: ext)))) a) c = .ok (other base label, c) := by
  have hd : Rend.displayOf L c (some (.loc place [] (.str (base ++ '.' :: ext)))) = base ++ '.' :: ext := by
    show (if [] = "mailto:".toList then [] else []) ++ (c.prefixes.lookup place).getD [] ++ (base ++ '.' :: ext) = _
    rw [hc]
    rfl
  have hpage : Rend.extPage (base ++ '.' :: ext) = base ++ ".html".toList := by
    unfold Rend.extPage
    rw [ext_of h]
    simp
  have hlabel : Rend.extLabel (Rend.renderElement L n) a (base ++ '.' :: ext) c = .ok (label, c) := by
    unfold Rend.extLabel
    rcases hl with hl | ⟨hl, rfl⟩
    · rw [hl]; rfl
    · rw [hl, ext_of h, if_neg (List.cons_ne_nil _ _), hpage]
      rfl
  show M.bind (Rend.extLabel (Rend.renderElement L n) a (Rend.displayOf L c (some (.loc place [] (.str (base ++ '.' :: ext)))))) _ c = _
  unfold M.bind
  rw [hd, hlabel]
  dsimp only
  rw [show Rend.extHref (base ++ '.' :: ext) = base ++ ".html".toList by
    unfold Rend.extHref
    rw [ext_of h, if_neg (List.cons_ne_nil _ _), hpage]]
  unfold Rend.exec
  dsimp only
  rw [hL]
  show Except.ok ("<a href=\"".toList ++ ((base ++ ".html".toList) ++ ("\">".toList ++ (label ++ ("</a>".toList ++ [])))), c) = _
  unfold other
  simp only [List.append_assoc]
  kernel_rfl

theorem ext_none {dir name : Text} (hd : dir = [] ∨ dir.getLast? = some '/') (h : ∀ d ∈ name, d ≠ '.' ∧ d ≠ '/') : Rend.fileExt (dir ++ name) = [] := by
  have hp : ∀ d ∈ name.reverse, (!(d == '.' || d == '/')) = true := by
    intro d hd
    obtain ⟨h1, h2⟩ := h d (List.mem_reverse.mp hd)
    simp [h1, h2]
  unfold Rend.fileExt
  rw [List.reverse_append, List.takeWhile_append_of_pos hp, List.dropWhile_append_of_pos hp]
  rcases hd with rfl | hd
  · rfl
  · obtain ⟨l, rfl⟩ := List.getLast?_eq_some_iff.mp hd
    simp

/-- A reference whose last part has no extension leads to a place in this document. -/
theorem this_document (hL : L.tmpl.externalCrossReference = Tmpl.Html5.externalCrossReferenceTmpl) {dir name : Text} (hdir : dir = [] ∨ dir.getLast? = some '/')
    (h : ∀ d ∈ name, d ≠ '.' ∧ d ≠ '/') {place n : Nat} {c : Rend.Ctx} (hc : c.prefixes.lookup place = none) {a : Attrs} {label : Text}
    (hl : AMap.get a "xrefLabel" = some (.str label) ∨ AMap.get a "xrefLabel" = none ∧ label = "[".toList ++ (dir ++ name) ++ "]".toList) :
    Rend.renderElement L (n + 1) (.extXref (some (.loc place [] (.str (dir ++ name)))) a) c = .ok (here (dir ++ name) label, c) := by
  have hd : Rend.displayOf L c (some (.loc place [] (.str (dir ++ name)))) = dir ++ name := by
    show (if [] = "mailto:".toList then [] else []) ++ (c.prefixes.lookup place).getD [] ++ (dir ++ name) = _
    rw [hc]
    rfl
  have hlabel : Rend.extLabel (Rend.renderElement L n) a (dir ++ name) c = .ok (label, c) := by
    unfold Rend.extLabel
    rcases hl with hl | ⟨hl, rfl⟩
    · rw [hl]; rfl
    · rw [hl, ext_none hdir h, if_pos rfl]
      rfl
  show M.bind (Rend.extLabel (Rend.renderElement L n) a (Rend.displayOf L c (some (.loc place [] (.str (dir ++ name)))))) _ c = _
  unfold M.bind
  rw [hd, hlabel]
  dsimp only
  rw [show Rend.extHref (dir ++ name) = "#".toList ++ (dir ++ name) by
    unfold Rend.extHref
    rw [ext_none hdir h, if_pos rfl]]
  unfold Rend.exec
  dsimp only
  rw [hL]
  show Except.ok ("<a href=\"".toList ++ (("#".toList ++ (dir ++ name)) ++ ("\">".toList ++ (label ++ ("</a>".toList ++ [])))), c) = _
  unfold here
  simp only [List.append_assoc]
  kernel_rfl

end Verif.C78
