import Verif.Spec.Pictures
import Verif.Proofs.KernelRfl
/-! C76: images are taken from `imagesdir`. -/
namespace Verif.C76
open Rend (AV El Attrs Lib M)
open Pictures

variable {L : Lib}

/-- The directory of images of the document. -/
def dirOf (c : Rend.Ctx) : Text := text c.attrs "imagesdir"

theorem dir_eq (c : Rend.Ctx) : (Rend.getStr c.attrs "imagesdir").getD [] = dirOf c := by
  unfold Rend.getStr dirOf text
  cases AMap.get c.attrs "imagesdir" with
  | none => rfl
  | some v => cases v <;> rfl

/-- What was put before the path of this image when it was rendered before. -/
def pre (c : Rend.Ctx) (x : Picture) : Text := (c.prefixes.lookup x.place).getD []

/-- The context after an image was rendered. -/
def after (L : Lib) (c : Rend.Ctx) (x : Picture) : Rend.Ctx :=
  if dirOf c ≠ [] ∧ x.scheme = [] ∧ (pre c x ++ x.path).head? ≠ some '/' ∧ L.urlAbs (pre c x ++ x.path) = some false then
    { c with prefixes := (x.place, (if (dirOf c).getLast? = some '/' then dirOf c else dirOf c ++ "/".toList) ++ pre c x) :: c.prefixes }
  else c

/-- The path of an image is what was put before it, and the path as written. -/
theorem src_any {c : Rend.Ctx} {x : Picture} (hd : AMap.get c.attrs "data-uri" = none) :
    Rend.imageSrc L (.loc x.place x.scheme (.str x.path)) c = .ok (source L.urlAbs (dirOf c) x.scheme (pre c x ++ x.path), after L c x) := by
  have hpre : Rend.prefixOf c (.loc x.place x.scheme (.str x.path)) = pre c x := rfl
  have hloc : Rend.locString L (pre c x) (.loc x.place x.scheme (.str x.path)) = x.scheme ++ (pre c x ++ x.path) := List.append_assoc _ _ _
  have hset : Rend.setPathPrefix L (dirOf c) (.loc x.place x.scheme (.str x.path)) c = .ok ((), after L c x) := by
    unfold Rend.setPathPrefix after
    by_cases h0 : dirOf c = []
    · rw [if_pos h0, if_neg fun h => h.1 h0]
      rfl
    · rw [if_neg h0]
      show (if x.scheme = [] ∧ (Rend.locString L (Rend.prefixOf c _) _).head? ≠ some '/' ∧ L.urlAbs (Rend.locString L (Rend.prefixOf c _) _) = some false then _ else _ : M Unit) c = _
      rw [hpre, hloc]
      by_cases hs : x.scheme = []
      · rw [hs, List.nil_append]
        by_cases h1 : (pre c x ++ x.path).head? ≠ some '/' ∧ L.urlAbs (pre c x ++ x.path) = some false
        · rw [if_pos ⟨rfl, h1⟩, if_pos (show dirOf c ≠ [] ∧ ([] : Text) = [] ∧ (pre c x ++ x.path).head? ≠ some '/' ∧ L.urlAbs (pre c x ++ x.path) = some false from ⟨h0, rfl, h1⟩)]
          rfl
        · rw [if_neg fun h => h1 h.2, if_neg fun h => h1 h.2.2]
          rfl
      · rw [if_neg fun h => hs h.1, if_neg fun h => hs h.2.1]
        rfl
  unfold Rend.imageSrc
  show M.bind (Rend.setPathPrefix L ((Rend.getStr c.attrs "imagesdir").getD []) _) _ c = _
  unfold M.bind
  rw [dir_eq, hset]
  have hattrs : (after L c x).attrs = c.attrs := by unfold after; split <;> rfl
  show Except.ok ((if Rend.has (after L c x).attrs "data-uri" then _ else _), after L c x) = _
  rw [hattrs, show Rend.has c.attrs "data-uri" = false by unfold Rend.has; rw [hd]; rfl, if_neg Bool.false_ne_true]
  congr 2
  unfold source after
  by_cases h : dirOf c ≠ [] ∧ x.scheme = [] ∧ (pre c x ++ x.path).head? ≠ some '/' ∧ L.urlAbs (pre c x ++ x.path) = some false
  · rw [if_pos h, if_pos h]
    show x.scheme ++ ((List.lookup x.place ((x.place, _) :: c.prefixes)).getD []) ++ x.path = _
    rw [List.lookup_cons, show (x.place == x.place) = true from beq_self_eq_true _, h.2.1]
    show [] ++ ((if (dirOf c).getLast? = some '/' then dirOf c else dirOf c ++ "/".toList) ++ pre c x) ++ x.path = _
    unfold below
    by_cases hl : (dirOf c).getLast? = some '/'
    · rw [if_pos hl, if_pos hl, List.nil_append, List.append_assoc]
    · rw [if_neg hl, if_neg hl]
      show (dirOf c ++ ['/'] ++ pre c x) ++ x.path = _
      rw [List.append_assoc, List.append_assoc]
      rfl
  · rw [if_neg h, if_neg h]
    exact hloc

theorem src_first {c : Rend.Ctx} {x : Picture} (hd : AMap.get c.attrs "data-uri" = none) (hp : c.prefixes.lookup x.place = none) :
    Rend.imageSrc L (.loc x.place x.scheme (.str x.path)) c = .ok (source L.urlAbs (dirOf c) x.scheme x.path, after L c x) := by
  rw [src_any hd, show pre c x = [] by unfold pre; rw [hp]; rfl]
  rfl

/-- The templates of images, of html5 and xhtml5. -/
inductive Draws (L : Lib) : String → Prop where
  | html (h1 : L.tmpl.blockImage = Tmpl.Html5.blockImageTmpl) (h2 : L.tmpl.inlineImage = Tmpl.Html5.inlineImageTmpl) : Draws L ">"
  | xhtml (h1 : L.tmpl.blockImage = Tmpl.Xhtml5.blockImageTmpl) (h2 : L.tmpl.inlineImage = Tmpl.Xhtml5.inlineImageTmpl) : Draws L "/>"

theorem text_default {a : Attrs} (h : Bare a) {k : String} (hk : k ∈ ["link", "width", "height"]) : Rend.getStrD L.sprint a k [] = text a k := by
  unfold Rend.getStrD text
  cases e : AMap.get a k with
  | none => rfl
  | some v => obtain ⟨t, rfl⟩ := h.text k hk v e; rfl

theorem element_id (a : Attrs) : Rend.elementID a = Rend.htmlEscape (text a "id") := by
  unfold Rend.elementID text
  cases AMap.get a "id" with
  | none => rfl
  | some v => cases v <;> rfl

theorem joined : ∀ l : List Text, Rend.joinWith " ".toList l = List.intercalate " ".toList l
  | [] => rfl
  | [t] => (List.append_nil t).symm
  | t :: u :: l => by
    show t ++ " ".toList ++ Rend.joinWith " ".toList (u :: l) = t ++ (" ".toList ++ List.intercalate " ".toList (u :: l))
    rw [joined (u :: l), List.append_assoc]

theorem roles_shown (re : El → M Text) (c : Rend.Ctx) : ∀ l : List Text, Rend.rolesAll re (l.map .str) c = .ok (l, c)
  | [] => rfl
  | t :: l => by
    show M.bind (Rend.rolesAll re (l.map .str)) _ c = _
    unfold M.bind
    rw [roles_shown re c l]
    rfl

theorem only_texts : ∀ l : List Text, (l.map AV.str).filterMap (fun v => match v with | .str t => some t | _ => none) = l
  | [] => rfl
  | t :: l => congrArg (t :: ·) (only_texts l)

theorem image_roles {a : Attrs} (h : Bare a) (re : El → M Text) (c : Rend.Ctx) : Rend.imageRoles re a c = .ok (List.intercalate " ".toList (looks a), c) := by
  have hr : ∃ l, Rend.rolesOf re a c = .ok (l, c) ∧ roleNames a = l := by
    unfold Rend.rolesOf roleNames
    show ∃ l, (match AMap.get a "roles" with | some (.roles l) => Rend.rolesAll re l | _ => M.pure [] : M (List Text)) c = _ ∧ _
    cases e : AMap.get a "roles" with
    | none => exact ⟨[], rfl, rfl⟩
    | some v =>
      obtain ⟨l, rfl⟩ := h.roles v e
      exact ⟨l, roles_shown re c l, only_texts l⟩
  obtain ⟨l, h1, h2⟩ := hr
  unfold looks
  rw [h2, ← joined]
  unfold Rend.imageRoles
  show M.bind (Rend.rolesOf re a) _ c = _
  unfold M.bind
  rw [h1]
  unfold Rend.getStr
  show Except.ok (Rend.joinWith " ".toList ((match AMap.get a "float" with | some (.str t) => some t | _ => none : Option Text).toList ++
    ((match AMap.get a "align" with | some (.str t) => some t | _ => none : Option Text).map ("text-".toList ++ ·)).toList ++ l), c) = _
  congr 4
  congr 1
  · cases AMap.get a "float" with
    | none => rfl
    | some v => cases v <;> rfl
  · cases AMap.get a "align" with
    | none => rfl
    | some v => cases v <;> rfl

theorem image_title {a : Attrs} (h : Bare a) (re : El → M Text) (c : Rend.Ctx) : Rend.elementTitle re a c = .ok (text a "title", c) := by
  unfold Rend.elementTitle text
  show (match AMap.get a "title" with | _ => _ : M Text) c = _
  cases e : AMap.get a "title" with
  | none => rfl
  | some v => obtain ⟨t, rfl⟩ := h.title v e; rfl

theorem image_alt {a : Attrs} {src alt : Text} (h : altText L.altOf a src = some alt) (c : Rend.Ctx) : Rend.imageAlt L a src c = .ok (alt, c) := by
  unfold Rend.imageAlt Rend.getStr
  unfold altText at h
  change (match (match AMap.get a "alt" with | some (.str t) => some t | _ => none) with
    | some t => M.pure t
    | none => match L.altOf src with | some t => M.pure t | none => M.error .fail : M Text) c = _
  cases e : AMap.get a "alt" with
  | none => rw [e] at h; dsimp only at h ⊢; rw [h]; rfl
  | some v =>
    rw [e] at h
    cases v <;> dsimp only at h ⊢ <;> first | (rw [h]; rfl) | (cases h; rfl)

theorem block_written {close : String} (hL : Draws L close) (id roles link src alt width height title cap : Text) (c : Rend.Ctx) :
    Rend.exec L (·.blockImage) [("ID", .str id), ("Src", .str src), ("Title", .str title), ("Caption", .str cap), ("Roles", .str roles), ("Href", .str link), ("Alt", .str alt),
      ("Width", .str width), ("Height", .str height)] c =
    .ok ("<div".toList ++ given "id" id ++ " class=\"imageblock".toList ++ (if roles = [] then [] else ' ' :: roles) ++ "\">\n<div class=\"content\">\n".toList ++
      (if link = [] then "<img src=\"".toList ++ src ++ "\" alt=\"".toList ++ alt ++ "\"".toList ++ given "width" width ++ given "height" height ++ close.toList
       else "<a class=\"image\" href=\"".toList ++ link ++ "\">".toList ++
        ("<img src=\"".toList ++ src ++ "\" alt=\"".toList ++ alt ++ "\"".toList ++ given "width" width ++ given "height" height ++ close.toList) ++ "</a>".toList) ++
      "\n</div>".toList ++ (if title = [] then "\n".toList else "\n<div class=\"title\">".toList ++ cap ++ title ++ "</div>\n".toList) ++ "</div>\n".toList, c) := by
  unfold Rend.exec
  dsimp only
  generalize he : ([("ID", .str id), ("Src", .str src), ("Title", .str title), ("Caption", .str cap), ("Roles", .str roles), ("Href", .str link), ("Alt", .str alt),
      ("Width", .str width), ("Height", .str height)] : Tmpl.Env) = env
  have g1 : AMap.get env "ID" = some (.str id) := by rw [← he]; rfl
  have g2 : AMap.get env "Src" = some (.str src) := by rw [← he]; rfl
  have g3 : AMap.get env "Title" = some (.str title) := by rw [← he]; rfl
  have g4 : AMap.get env "Caption" = some (.str cap) := by rw [← he]; rfl
  have g5 : AMap.get env "Roles" = some (.str roles) := by rw [← he]; rfl
  have g6 : AMap.get env "Href" = some (.str link) := by rw [← he]; rfl
  have g7 : AMap.get env "Alt" = some (.str alt) := by rw [← he]; rfl
  have g8 : AMap.get env "Width" = some (.str width) := by rw [← he]; rfl
  have g9 : AMap.get env "Height" = some (.str height) := by rw [← he]; rfl
  cases hL with
  | html h1 h2 =>
    rw [h1]
    unfold Tmpl.Html5.blockImageTmpl given
    cases id <;> cases roles <;> cases link <;> cases width <;> cases height <;> cases title <;>
      simp only [Tmpl.Tm.render, Tmpl.Cond.eval, g1, g2, g3, g4, g5, g6, g7, g8, g9, Option.map, Option.bind, Tmpl.Val.truth, Tmpl.Val.shown, Tmpl.Fn.call, List.isEmpty, Bool.not_true, Bool.not_false,
        Bool.false_eq_true, if_true, if_false, List.append_assoc, List.append_nil, List.nil_append, List.cons_ne_nil, reduceCtorEq, M.pure] <;> (change @Eq _ _ _; kernel_rfl)
  | xhtml h1 h2 =>
    rw [h1]
    unfold Tmpl.Xhtml5.blockImageTmpl given
    cases id <;> cases roles <;> cases link <;> cases width <;> cases height <;> cases title <;>
      simp only [Tmpl.Tm.render, Tmpl.Cond.eval, g1, g2, g3, g4, g5, g6, g7, g8, g9, Option.map, Option.bind, Tmpl.Val.truth, Tmpl.Val.shown, Tmpl.Fn.call, List.isEmpty, Bool.not_true, Bool.not_false,
        Bool.false_eq_true, if_true, if_false, List.append_assoc, List.append_nil, List.nil_append, List.cons_ne_nil, reduceCtorEq, M.pure] <;> (change @Eq _ _ _; kernel_rfl)

theorem inline_written {close : String} (hL : Draws L close) (roles link src alt width height title : Text) (c : Rend.Ctx) :
    Rend.exec L (·.inlineImage) [("Src", .str src), ("Title", .str title), ("Roles", .str roles), ("Href", .str link), ("Alt", .str alt), ("Width", .str width), ("Height", .str height)] c =
    .ok ("<span class=\"image".toList ++ (if roles = [] then [] else ' ' :: roles) ++ "\">".toList ++
      (if link = [] then "<img src=\"".toList ++ src ++ "\" alt=\"".toList ++ alt ++ "\"".toList ++ given "width" width ++ given "height" height ++ given "title" title ++ close.toList
       else "<a class=\"image\" href=\"".toList ++ link ++ "\">".toList ++
        ("<img src=\"".toList ++ src ++ "\" alt=\"".toList ++ alt ++ "\"".toList ++ given "width" width ++ given "height" height ++ given "title" title ++ close.toList) ++ "</a>".toList) ++
      "</span>".toList, c) := by
  unfold Rend.exec
  dsimp only
  generalize he : ([("Src", .str src), ("Title", .str title), ("Roles", .str roles), ("Href", .str link), ("Alt", .str alt),
      ("Width", .str width), ("Height", .str height)] : Tmpl.Env) = env
  have g2 : AMap.get env "Src" = some (.str src) := by rw [← he]; rfl
  have g3 : AMap.get env "Title" = some (.str title) := by rw [← he]; rfl
  have g5 : AMap.get env "Roles" = some (.str roles) := by rw [← he]; rfl
  have g6 : AMap.get env "Href" = some (.str link) := by rw [← he]; rfl
  have g7 : AMap.get env "Alt" = some (.str alt) := by rw [← he]; rfl
  have g8 : AMap.get env "Width" = some (.str width) := by rw [← he]; rfl
  have g9 : AMap.get env "Height" = some (.str height) := by rw [← he]; rfl
  cases hL with
  | html h1 h2 =>
    rw [h2]
    unfold Tmpl.Html5.inlineImageTmpl given
    cases roles <;> cases link <;> cases width <;> cases height <;> cases title <;>
      simp only [Tmpl.Tm.render, Tmpl.Cond.eval, g2, g3, g5, g6, g7, g8, g9, Option.map, Option.bind, Tmpl.Val.truth, Tmpl.Val.shown, Tmpl.Fn.call, List.isEmpty, Bool.not_true, Bool.not_false,
        Bool.false_eq_true, if_true, if_false, List.append_assoc, List.append_nil, List.nil_append, List.cons_ne_nil, reduceCtorEq, M.pure] <;> (change @Eq _ _ _; kernel_rfl)
  | xhtml h1 h2 =>
    rw [h2]
    unfold Tmpl.Xhtml5.inlineImageTmpl given
    cases roles <;> cases link <;> cases width <;> cases height <;> cases title <;>
      simp only [Tmpl.Tm.render, Tmpl.Cond.eval, g2, g3, g5, g6, g7, g8, g9, Option.map, Option.bind, Tmpl.Val.truth, Tmpl.Val.shown, Tmpl.Fn.call, List.isEmpty, Bool.not_true, Bool.not_false,
        Bool.false_eq_true, if_true, if_false, List.append_assoc, List.append_nil, List.nil_append, List.cons_ne_nil, reduceCtorEq, M.pure] <;> (change @Eq _ _ _; kernel_rfl)

theorem drawn_untitled (close : String) (a : Attrs) (src alt : Text) : drawn close a src alt [] =
    (if text a "link" = [] then "<img src=\"".toList ++ src ++ "\" alt=\"".toList ++ alt ++ "\"".toList ++ given "width" (text a "width") ++ given "height" (text a "height") ++ close.toList
     else "<a class=\"image\" href=\"".toList ++ text a "link" ++ "\">".toList ++
      ("<img src=\"".toList ++ src ++ "\" alt=\"".toList ++ alt ++ "\"".toList ++ given "width" (text a "width") ++ given "height" (text a "height") ++ close.toList) ++ "</a>".toList) := by
  unfold drawn
  rw [show given "title" [] = [] from rfl, List.append_nil]

/-- The first time that an image is rendered, it is taken from `imagesdir`. -/
theorem shown_first {close : String} (hL : Draws L close) (n : Nat) {c : Rend.Ctx} {x : Picture} (hb : Bare x.attrs) (ht : x.alone = true → text x.attrs "title" = []) (hd : AMap.get c.attrs "data-uri" = none)
    (hp : c.prefixes.lookup x.place = none) (ha : (altText L.altOf x.attrs (source L.urlAbs (dirOf c) x.scheme x.path)).isSome) :
    Rend.renderElement L (n + 1) x.element c = .ok (html close L.urlAbs L.altOf (dirOf c) x, after L c x) := by
  obtain ⟨alt, ha'⟩ := Option.isSome_iff_exists.mp ha
  have h1 : ∀ re, x.alone = true → Rend.renderImageBlock L re (.loc x.place x.scheme (.str x.path)) x.attrs c =
      .ok ("<div".toList ++ given "id" (Rend.htmlEscape (text x.attrs "id")) ++ " class=\"imageblock".toList ++ more (looks x.attrs) ++ "\">\n<div class=\"content\">\n".toList ++
        drawn close x.attrs (source L.urlAbs (dirOf c) x.scheme x.path) alt [] ++ "\n</div>\n</div>\n".toList, after L c x) := by
    intro re hx
    unfold Rend.renderImageBlock
    show M.bind (Rend.elementTitle re x.attrs) _ c = _
    unfold M.bind
    rw [image_title hb, ht hx]
    show M.bind (Rend.imageRoles re x.attrs) _ c = _
    unfold M.bind
    rw [image_roles hb]
    show M.bind (Rend.imageSrc L _) _ c = _
    unfold M.bind
    rw [src_first hd hp]
    show M.bind (Rend.imageAlt L x.attrs _) _ (after L c x) = _
    unfold M.bind
    rw [image_alt ha']
    show Rend.exec L _ _ _ = _
    rw [text_default hb (k := "link") (by simp), text_default hb (k := "width") (by simp), text_default hb (k := "height") (by simp), element_id]
    rw [drawn_untitled]
    exact (block_written hL _ _ _ _ _ _ _ [] [] _).trans (by rw [if_pos rfl]; simp only [List.append_assoc]; rfl)
  have h2 : ∀ re, Rend.renderInlineImage L re (.loc x.place x.scheme (.str x.path)) x.attrs c =
      .ok ("<span class=\"image".toList ++ more (looks x.attrs) ++ "\">".toList ++ drawn close x.attrs (source L.urlAbs (dirOf c) x.scheme x.path) alt (text x.attrs "title") ++ "</span>".toList, after L c x) := by
    intro re
    unfold Rend.renderInlineImage
    show M.bind (Rend.imageRoles re x.attrs) _ c = _
    unfold M.bind
    rw [image_roles hb]
    show M.bind (Rend.imageSrc L _) _ c = _
    unfold M.bind
    rw [src_first hd hp]
    show M.bind (Rend.imageAlt L x.attrs _) _ (after L c x) = _
    unfold M.bind
    rw [image_alt ha']
    show M.bind (Rend.elementTitle re x.attrs) _ (after L c x) = _
    unfold M.bind
    rw [image_title hb]
    show Rend.exec L _ _ _ = _
    rw [text_default hb (k := "link") (by simp), text_default hb (k := "width") (by simp), text_default hb (k := "height") (by simp)]
    exact inline_written hL _ _ _ _ _ _ _ _
  unfold html Picture.element
  dsimp only
  rw [ha']
  by_cases hx : x.alone = true
  · rw [if_pos hx, if_pos hx, if_pos hx]
    exact h1 _ hx
  · rw [if_neg hx, if_neg hx, if_neg hx]
    exact h2 _

theorem after_keeps (c : Rend.Ctx) (x : Picture) : (after L c x).attrs = c.attrs ∧ ∀ p, p ≠ x.place → (after L c x).prefixes.lookup p = c.prefixes.lookup p := by
  unfold after
  split
  · refine ⟨rfl, fun p hp => ?_⟩
    rw [List.lookup_cons, show (p == x.place) = false from beq_eq_false_iff_ne.mpr hp]
  · exact ⟨rfl, fun _ _ => rfl⟩

/-- Any number of images, each at its own place in the document: each is taken from `imagesdir`, whatever the others are. -/
theorem images {close : String} (hL : Draws L close) (n : Nat) : ∀ (l : List Picture) (c : Rend.Ctx), (∀ x ∈ l, Bare x.attrs) → (∀ x ∈ l, x.alone = true → text x.attrs "title" = []) → AMap.get c.attrs "data-uri" = none →
    (∀ x ∈ l, c.prefixes.lookup x.place = none) → (l.map (·.place)).Nodup → (∀ x ∈ l, (altText L.altOf x.attrs (source L.urlAbs (dirOf c) x.scheme x.path)).isSome) →
    ∃ c', Rend.renderAll (Rend.renderElement L (n + 1)) (l.map (·.element)) c = .ok (l.flatMap (html close L.urlAbs L.altOf (dirOf c)), c')
  | [], c, _, _, _, _, _, _ => ⟨c, rfl⟩
  | x :: l, c, hb, ht, hd, hp, hu, ha => by
    obtain ⟨ka, kp⟩ := after_keeps (L := L) c x
    have hdir : dirOf (after L c x) = dirOf c := by unfold dirOf; rw [ka]
    obtain ⟨hx, hu'⟩ := List.nodup_cons.mp hu
    obtain ⟨c', ih⟩ := images hL n l (after L c x) (fun y hy => hb y (List.mem_cons_of_mem _ hy)) (fun y hy => ht y (List.mem_cons_of_mem _ hy)) (by rw [ka]; exact hd)
      (fun y hy => by
        rw [kp y.place fun e => hx (List.mem_map.mpr ⟨y, hy, e⟩)]
        exact hp y (List.mem_cons_of_mem _ hy))
      hu' (fun y hy => by rw [hdir]; exact ha y (List.mem_cons_of_mem _ hy))
    refine ⟨c', ?_⟩
    show M.bind (Rend.renderElement L (n + 1) x.element) _ c = _
    unfold M.bind
    rw [shown_first hL n (hb x List.mem_cons_self) (ht x List.mem_cons_self) hd (hp x List.mem_cons_self) (ha x List.mem_cons_self)]
    show M.bind (Rend.renderAll _ _) _ (after L c x) = _
    unfold M.bind
    rw [ih, hdir]
    rfl

/-- Without `imagesdir`, or if the address is not relative, it is left as it is. -/
theorem left_alone {isURL : Text → Option Bool} {dir scheme path : Text} (h : dir = [] ∨ scheme ≠ [] ∨ path.head? = some '/' ∨ isURL path ≠ some false) :
    source isURL dir scheme path = scheme ++ path := by
  unfold source
  rw [if_neg]
  rintro ⟨h1, h2, h3, h4⟩
  rcases h with h | h | h | h
  · exact h1 h
  · exact h h2
  · exact h3 h
  · exact h h4

/-! ### The same image again -/

theorem below_head {dir path : Text} (h : dir ≠ []) : (below dir path).head? = dir.head? := by
  unfold below
  cases dir with
  | nil => exact absurd rfl h
  | cons c l => split <;> rfl

theorem pre_after {c : Rend.Ctx} {x : Picture} (hp : c.prefixes.lookup x.place = none)
    (hr : dirOf c ≠ [] ∧ x.scheme = [] ∧ x.path.head? ≠ some '/' ∧ L.urlAbs x.path = some false) : pre (after L c x) x ++ x.path = below (dirOf c) x.path := by
  have h0 : pre c x = [] := by unfold pre; rw [hp]; rfl
  unfold after
  rw [h0, List.nil_append, if_pos hr]
  show ((List.lookup x.place ((x.place, _) :: c.prefixes)).getD []) ++ x.path = _
  rw [List.lookup_cons, show (x.place == x.place) = true from beq_self_eq_true _]
  show ((if (dirOf c).getLast? = some '/' then dirOf c else dirOf c ++ "/".toList) ++ []) ++ x.path = _
  rw [List.append_nil]
  unfold below
  by_cases hl : (dirOf c).getLast? = some '/'
  · rw [if_pos hl, if_pos hl]
  · rw [if_neg hl, if_neg hl]
    show dirOf c ++ ['/'] ++ x.path = _
    rw [List.append_assoc]
    rfl

/-- If `imagesdir` begins with a slash, or is a URL, an image that is rendered again is taken from the same address. -/
theorem again_same {c : Rend.Ctx} {x : Picture} (hd : AMap.get c.attrs "data-uri" = none) (hp : c.prefixes.lookup x.place = none)
    (hs : (dirOf c).head? = some '/' ∨ L.urlAbs (below (dirOf c) x.path) ≠ some false) :
    ∃ c', Rend.imageSrc L (.loc x.place x.scheme (.str x.path)) (after L c x) = .ok (source L.urlAbs (dirOf c) x.scheme x.path, c') := by
  obtain ⟨ka, _⟩ : (after L c x).attrs = c.attrs ∧ True := ⟨by unfold after; split <;> rfl, trivial⟩
  have hdir : dirOf (after L c x) = dirOf c := by unfold dirOf; rw [ka]
  refine ⟨after L (after L c x) x, (src_any (by rw [ka]; exact hd)).trans ?_⟩
  rw [hdir]
  by_cases hr : dirOf c ≠ [] ∧ x.scheme = [] ∧ x.path.head? ≠ some '/' ∧ L.urlAbs x.path = some false
  · rw [pre_after hp hr, left_alone (hs.elim (fun h => .inr (.inr (.inl (by rw [below_head hr.1]; exact h)))) fun h => .inr (.inr (.inr h)))]
    unfold source
    rw [if_pos hr, hr.2.1]
    rfl
  · have h0 : pre c x = [] := by unfold pre; rw [hp]; rfl
    have : after L c x = c := by unfold after; rw [h0, List.nil_append, if_neg hr]
    rw [this, h0]
    rfl

/-- Finding (image.go:113-115, types.go:3549-3567): the path of an image is changed when it is rendered. If it is rendered again, with a relative `imagesdir`, it is taken from that directory
within that directory. -/
theorem finding_twice {c : Rend.Ctx} {x : Picture} (hd : AMap.get c.attrs "data-uri" = none) (hp : c.prefixes.lookup x.place = none)
    (hr : dirOf c ≠ [] ∧ x.scheme = [] ∧ x.path.head? ≠ some '/' ∧ L.urlAbs x.path = some false) (hs : (dirOf c).head? ≠ some '/')
    (hu : L.urlAbs (below (dirOf c) x.path) = some false) :
    ∃ c', Rend.imageSrc L (.loc x.place x.scheme (.str x.path)) (after L c x) = .ok (below (dirOf c) (below (dirOf c) x.path), c') := by
  obtain ⟨ka, _⟩ : (after L c x).attrs = c.attrs ∧ True := ⟨by unfold after; split <;> rfl, trivial⟩
  have hdir : dirOf (after L c x) = dirOf c := by unfold dirOf; rw [ka]
  refine ⟨after L (after L c x) x, (src_any (by rw [ka]; exact hd)).trans ?_⟩
  rw [hdir, pre_after hp hr]
  unfold source
  rw [if_pos ⟨hr.1, hr.2.1, by rw [below_head hr.1]; exact hs, hu⟩]

end Verif.C76
