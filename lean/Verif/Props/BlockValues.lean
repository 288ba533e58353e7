import Verif.Props.Paragraphs
import Verif.Props.Blocks
import Verif.Proofs.Within
import Verif.Spec.Composed

/-!
# C62 — What the parser builds for delimited blocks

A delimited block has the lines between its delimiters, without the spaces at their ends.
-/
namespace Verif
namespace C62
open Peg Grammar Actions
open Walk (Any Kind)
open C59 (Cut)
open C49 (LenCode SizedRules PlainRules Ends delimLen leading)
open C48 (firstLine)
open Composed (fence Closes)

variable {σ : Type} {S : Sem σ} {A : Peg.Code σ} {len : σ → Nat} {t r z : Text}

/-! ### The length is kept -/

/-- Code that changes the length. -/
def loudLen : List Nat := C49.setters.map (·.1)

/-- Rules without such code. -/
def quietLen : List Nat := R.DelimitedBlockRawLine :: C49.quietRules

theorem quietLen_ok : quietLen.all (fun i => quiet loudLen (fun i => quietLen.contains i) (grammar i)) = true := by decide +kernel

theorem keeps (hS : LenCode S len) {e : Exp} (he : quiet loudLen (fun i => quietLen.contains i) e = true) {st : Text} {s : σ} {t : Text} {r : Res σ}
    (h : Eval grammar S e st s t r) : len r.st = len s := by
  obtain ⟨n, h⟩ := h
  refine run_keeps (G := grammar) (S := S) len loudLen (fun i => quietLen.contains i) ?_ ?_ ?_ ?_ ?_ n e st s t r he h
  · intro i hi
    exact List.all_eq_true.mp quietLen_ok i (by simpa using hi)
  · intro id s st t hid
    exact hS.pred_len id s st t hid
  · intro id s st t _
    exact hS.state_len id s st t
  · intro id s t u _
    exact hS.act_len id s t u
  · intro a b hab
    rw [hS.restore_len a b, hab]

/-! ### Lines -/

theorem firstLine_cut (hz : Cut z r) {l : Text} (h : ∀ c ∈ l, isEol c = false) : firstLine (l ++ z) = l := by
  rw [C48.firstLine_append h]
  cases hz <;> exact List.append_nil _

theorem afterLine_cut (hz : Cut z r) {l : Text} (h : ∀ c ∈ l, isEol c = false) : afterLine (l ++ z) = r := by
  have := eol_after (l ++ z)
  rw [C59.full_drop hz h] at this
  cases hz <;> exact (Option.some.inj this).symm

theorem eolV (hA : Obeys A) (hz : Cut z r) : ∃ v, ∀ st, Exactly grammar S A st (.rule R.EOL) z [v] r := by
  cases hz with
  | line =>
    exact ⟨.text ['\n'], fun st => exactly_rule (exactly_alt_left (exactly_rule (exactly_of_yields (yields_alt_left (yields_lit (l := ['\n'])))
      (fun s v => by
      have : span ('\n' :: r) r = ['\n'] := C59.span_append ['\n'] r
      rw [this]; exact hA 459 s v _ _ rfl))))⟩
  | eof => exact ⟨.nil, fun st => exactly_rule (exactly_alt_right yields_Newline (exactly_rule (exactly_notP yields_any_nil)))⟩

/-- A line of a block, without the spaces at its end. -/
theorem rawLineV (hA : Obeys A) (hz : Cut z r) {l : Text} (h : ∀ c ∈ l, isEol c = false) (h0 : l ++ z ≠ []) {st : Text} :
    Exactly grammar S A st (.rule R.DelimitedBlockRawLine) (l ++ z) [.raw (trimRight l)] r := by
  obtain ⟨v, he⟩ := eolV (S := S) hA hz
  have e : (fun c => !isEol c) = (Cls.mk true ['\r', '\n'] [] false false).has S.letter S.number := by
    funext x; rw [has_line]
  have hc : ∀ st, Exactly grammar S A st (.rule R.AnyChars) (l ++ z) [.text l] z := by
    intro st
    have hy := yields_star_cls (G := grammar) (S := S) (c := ⟨true, ['\r', '\n'], [], false, false⟩) (l ++ z)
    rw [← e, C59.full_drop hz h] at hy
    refine exactly_rule (exactly_of_yields hy (fun s v => ?_))
    rw [C59.span_append]
    exact hA 445 s v _ _ rfl
  obtain ⟨c, x, hx⟩ : ∃ c x, l ++ z = c :: x := by
    cases hx : l ++ z with
    | nil => exact absurd hx h0
    | cons c x => exact ⟨c, x, rfl⟩
  have hn : ∀ st, Exactly grammar S A st (.rule R.NotEOF) (l ++ z) [.nil] (l ++ z) := by
    intro st; rw [hx]; exact C59.exactly_NotEOF
  exact exactly_rule (exactly_act (exactly_scope (exactly_seq (hn _) (exactly_seq (hc _) (he _)))) (fun s => hA 138 s _ _ _ rfl))

/-! ### The content of a block -/

/-- One line of the content. -/
def line (id fin : Nat) : Exp := .act id (.scope (.seq (.notP (.rule fin)) (.rule R.DelimitedBlockRawLine)))

theorem quiet_line {id fin : Nat} (hf : fin ∈ C49.quietRules) (hid : id ∉ loudLen) : quiet loudLen (fun i => quietLen.contains i) (line id fin) = true := by
  have h1 : quietLen.contains fin = true := by
    rw [List.contains_iff_mem]; exact List.mem_cons_of_mem _ hf
  have h2 : quietLen.contains R.DelimitedBlockRawLine = true := by decide
  simp only [line, quiet, h1, h2, Bool.and_true]
  simpa using hid

theorem content_line (hA : Obeys A) {fin n id : Nat} {close : Text → Bool} (hf : Ends S len fin n close)
    (hb : ∀ x v t, code id [.slice [x, v]] t = some v) (hz : Cut z r) {l : Text} (h : ∀ c ∈ l, isEol c = false) (h0 : l ++ z ≠ [])
    (hc : close l = false) {st : Text} : Within grammar S A (fun s => len s = n) st (line id fin) (l ++ z) (· = [.raw (trimRight l)]) r := by
  have hno : Within grammar S A (fun s => len s = n) (l ++ z) (.notP (.rule fin)) (l ++ z) (· = [.nil]) (l ++ z) := by
    refine within_notP (fun s x hs hx => ?_)
    have := hf.line _ _ _ _ hs h0 hx
    rw [firstLine_cut hz h, hc] at this
    exact this
  refine within_act (within_scope (V := (· = [.nil, .raw (trimRight l)])) (W := (· = [.slice [.nil, .raw (trimRight l)]])) (within_seq hno (Q := fun _ => True) (fun _ _ _ _ => trivial) (rawLineV hA hz h h0).within ?_) ?_) ?_
  · rintro v w rfl rfl; rfl
  · rintro v rfl; rfl
  · rintro s v rfl
    rw [hA id s _ _ _ (hb _ _ _)]

theorem content_stop {fin n id : Nat} {close : Text → Bool} (hf : Ends S len fin n close) (hz : Cut z r) {l : Text} (h : ∀ c ∈ l, isEol c = false)
    (h0 : l ++ z ≠ []) (hc : close l = true) {st : Text} : ∀ s x, len s = n → Eval grammar S (line id fin) st s (l ++ z) x → x.rest = none := by
  intro s x hs hx
  rcases eval_act.mp hx with ⟨s1, h1, rfl⟩ | ⟨s1, u, h1, rfl⟩
  · rfl
  · rcases eval_scope.mp h1 with ⟨s2, h2, e⟩ | ⟨s2, u, h2, e⟩
    · cases e
    · cases e
      rcases eval_seq.mp h2 with ⟨s3, h3, e⟩ | ⟨s3, u, h3, h4⟩
      · cases e
      · rcases eval_notP.mp h3 with ⟨s4, h5, e⟩ | ⟨s4, u', h5, e⟩
        · have := hf.line _ _ _ _ hs h0 h5
          rw [firstLine_cut hz h, hc] at this
          cases this
        · cases e

/-- The lines up to the one that closes the block. -/
theorem contentV (hS : LenCode S len) (hA : Obeys A) {fin n id : Nat} {close : Text → Bool} (hf : Ends S len fin n close) (hid : id ∉ loudLen)
    (hb : ∀ x v t, code id [.slice [x, v]] t = some v) (hz : Cut z r) {d : Text} (hd : ∀ c ∈ d, isEol c = false) (h0 : d ++ z ≠ []) (hc : close d = true)
    {st : Text} : ∀ {ls : List Text}, (∀ l ∈ ls, (∀ c ∈ l, isEol c = false) ∧ close l = false) →
    Within grammar S A (fun s => len s = n) st (.star (line id fin)) (unlines ls ++ (d ++ z))
      (· = [.slice (ls.map (fun l => .raw (trimRight l)))]) (d ++ z)
  | [], _ => within_star_stop (content_stop hf hz hd h0 hc)
  | l :: ls, h => by
    have ih := contentV hS hA hf hid hb hz hd h0 hc (st := st) (ls := ls) (fun x hx => h x (List.mem_cons_of_mem _ hx))
    obtain ⟨h1, h2⟩ := h l List.mem_cons_self
    have e : unlines (l :: ls) ++ (d ++ z) = l ++ '\n' :: (unlines ls ++ (d ++ z)) := by simp [unlines]
    rw [e]
    have hl := content_line (st := st) hA hf hb (.line (r := unlines ls ++ (d ++ z))) h1 (by simp) h2
    exact within_star_step hl (fun s x hs hx => (keeps hS (quiet_line hf.quiet hid) hx).trans hs) ih

/-- The content and the end. -/
theorem endV (hS : LenCode S len) (hA : Obeys A) {cont fin n id k : Nat} {close : Text → Bool} (hf : Ends S len fin n close) (hid : id ∉ loudLen)
    (hb : ∀ x v t, code id [.slice [x, v]] t = some v) (hG : grammar cont = .star (line id fin)) (hone : single grammar k (.rule fin) = true)
    (hz : Cut z t) {d : Text} (hd : ∀ c ∈ d, isEol c = false) (h0 : d ++ z ≠ []) (hc : close d = true) {st : Text} {ls : List Text}
    (h : ∀ l ∈ ls, (∀ c ∈ l, isEol c = false) ∧ close l = false) :
    Within grammar S A (fun s => len s = n) st (.seq (.rule cont) (.opt (.rule fin))) (unlines ls ++ (d ++ z))
      (fun v => ∃ x, v = [.slice (ls.map (fun l => .raw (trimRight l))), x]) t := by
  have h1 : Within grammar S A (fun s => len s = n) st (.rule cont) (unlines ls ++ (d ++ z)) (· = [.slice (ls.map (fun l => .raw (trimRight l)))]) (d ++ z) := by
    refine within_rule ?_
    rw [hG]
    exact contentV hS hA hf hid hb hz hd h0 hc h
  have h2 : Within grammar S A (fun s => len s = n) st (.rule fin) (d ++ z) (fun v => ∃ x, v = [x]) t := by
    refine within_single hone (fun s x hs hx => ?_)
    have := hf.line _ _ _ _ hs h0 hx
    rw [firstLine_cut hz hd, hc, if_pos rfl, afterLine_cut hz hd] at this
    exact this
  refine within_seq h1 (Q := fun s => len s = n) (fun s x hs hx => ?_) (within_opt h2) ?_
  · have hx := eval_rule.mp hx
    rw [hG] at hx
    exact (keeps hS (e := .star (line id fin)) (quiet_line hf.quiet hid) hx).trans hs
  · rintro v w rfl ⟨x, rfl⟩
    exact ⟨x, rfl⟩

/-! ### Delimiters -/

theorem fence_inline {c : Char} {n : Nat} {w : Text} (hc : isEol c = false) (hw : ∀ x ∈ w, isBlank x = true) : ∀ x ∈ fence c n w, isEol x = false := by
  intro x hx
  rcases List.mem_append.mp hx with hx | hx
  · rw [(List.mem_replicate.mp hx).2]; exact hc
  · have := hw x hx
    simp only [isBlank, Bool.or_eq_true, beq_iff_eq] at this
    rcases this with rfl | rfl <;> rfl

theorem takeWhile_replicate {c : Char} {w : Text} (hw : ∀ x ∈ w, x ≠ c) : ∀ n, (List.replicate n c ++ w).takeWhile (· == c) = List.replicate n c ∧
    (List.replicate n c ++ w).dropWhile (· == c) = w
  | 0 => by
    cases w with
    | nil => exact ⟨rfl, rfl⟩
    | cons x w =>
      have : (x == c) = false := by simpa using hw x List.mem_cons_self
      exact ⟨List.takeWhile_cons_of_neg (by simp [this]), List.dropWhile_cons_of_neg (by simp [this])⟩
  | n + 1 => by
    obtain ⟨h1, h2⟩ := takeWhile_replicate hw n
    rw [List.replicate_succ, List.cons_append, List.takeWhile_cons_of_pos (by simp), List.dropWhile_cons_of_pos (by simp), h1, h2]
    exact ⟨rfl, rfl⟩

theorem fence_len {c : Char} {k n : Nat} {w : Text} (hc : isBlank c = false) (hk : k ≤ n) (hw : ∀ x ∈ w, isBlank x = true) :
    delimLen c k (fence c n w) = some n := by
  have hne : ∀ x ∈ w, x ≠ c := by rintro x hx rfl; rw [hw x hx] at hc; cases hc
  obtain ⟨h1, h2⟩ := takeWhile_replicate hne n
  have hl : leading c (fence c n w) = n := by unfold leading fence; rw [h1, List.length_replicate]
  unfold delimLen
  rw [hl]
  refine if_pos ⟨hk, ?_⟩
  unfold fence
  rw [h2]
  exact List.all_eq_true.mpr hw

theorem len_fence {c : Char} {k n : Nat} {l : Text} (h : delimLen c k l = some n) : Closes c n l := by
  have h1 := C49.delimLen_le h
  refine ⟨l.dropWhile (· == c), List.all_eq_true.mp h1.2, ?_⟩
  rw [C49.delimLen_some h]
  have : l.takeWhile (· == c) = List.replicate (leading c l) c := by
    rw [List.eq_replicate_iff]
    exact ⟨rfl, fun x hx => by simpa using C59.mem_takeWhile (p := (· == c)) hx⟩
  unfold fence
  rw [← this, List.takeWhile_append_dropWhile]

/-! ### Blocks -/

/-- A block whose delimiters have the same length. -/
theorem sizedV (hS : LenCode S len) (hA : Obeys A) {c : Char} {k block start cont fin delim set same a b d d' : Nat} {kind : Kind}
    (hR : SizedRules c k block start cont fin delim set same a b d d')
    (ha : ∀ x y ls z t, code a [.slice [x, y, .slice ls, z]] t = some (.block kind [] (appendNewlines ls)))
    (hb : ∀ x v t, code b [.slice [x, v]] t = some v) (hb' : b ∉ loudLen) (hc : isBlank c = false) {n : Nat} (hk : k ≤ n) (h1 : 1 ≤ k) {w w' : Text}
    (hw : ∀ x ∈ w, isBlank x = true) (hw' : ∀ x ∈ w', isBlank x = true) {ls : List Text}
    (hls : ∀ l ∈ ls, (∀ c ∈ l, isEol c = false) ∧ ¬ Closes c n l) (hz : Cut z r) {st : Text} :
    Exactly grammar S A st (.rule block) (fence c n w ++ '\n' :: (unlines ls ++ (fence c n w' ++ z)))
      [.block kind [] (appendNewlines (ls.map (fun l => .raw (trimRight l))))] r := by
  have hin := fence_inline (n := n) hR.hchar.2 hw
  have hin' := fence_inline (n := n) hR.hchar.2 hw'
  have h0 : ∀ w z, fence c n w ++ z ≠ [] := by
    intro w z h
    have := congrArg List.length h
    simp [fence] at this
    omega
  have hend := C49.sized_end hS hR n
  have hcont := endV (st := fence c n w ++ '\n' :: (unlines ls ++ (fence c n w' ++ z))) (k := 6) hS hA hend hb' hb hR.hcont
    (by show single grammar 5 (grammar fin) = true; rw [hR.hfin]; rfl) hz hin' (h0 w' z) (by rw [fence_len hc hk hw']; simp) (ls := ls) (fun l hl => ⟨(hls l hl).1, by
      cases hD : delimLen c k l with
      | none => rfl
      | some m =>
        by_cases hm : m = n
        · subst hm
          exact absurd (len_fence hD) (hls l hl).2
        · simpa using hm⟩)
  generalize hy : unlines ls ++ (fence c n w' ++ z) = y at hcont ⊢
  have hz1 : Cut ('\n' :: y) y := .line
  have hstart : ∀ st, Within grammar S A (fun _ => True) st (.rule start) (fence c n w ++ '\n' :: y) (fun v => ∃ x, v = [x]) y := by
    intro st
    refine within_single (k := 3) (by simp [single, hR.hstart, hR.hdelim]) (fun s x _ hx => ?_)
    have hy : Yields grammar S (.rule start) (fence c n w ++ '\n' :: y) (some y) := by
      refine yields_rule ?_
      rw [hR.hstart]
      refine (C49.yields_delimiter (S := S) hR.hchar.1 hR.hchar.2 hR.hdelim _).to ?_
      rw [firstLine_cut hz1 hin, fence_len hc hk hw, afterLine_cut hz1 hin]
      rfl
    exact hy _ _ _ hx
  have hset : ∀ s, (S.pred set s (fence c n w ++ '\n' :: y) y).1 = true ∧ len (S.pred set s (fence c n w ++ '\n' :: y) y).2 = n := by
    intro s
    have := hS.set _ hR.hset s (fence c n w ++ ['\n']) y
    rw [List.append_assoc] at this
    refine ⟨this.1, this.2.trans ?_⟩
    rw [C49.leading_line hR.hchar.2 _ _ (by simp [isEol])]
    exact (C49.delimLen_some (fence_len hc hk hw)).symm
  have hpred : Within grammar S A (fun _ => True) (fence c n w ++ '\n' :: y) (.pred set) y (· = [.nil]) y := within_pred (fun s _ => (hset s).1)
  refine Within.exactly (within_rule ?_)
  rw [hR.hblock]
  refine within_act (V := fun v => ∃ x z, v = [.slice [x, .nil, .slice (ls.map (fun l => .raw (trimRight l))), z]]) (within_scope
    (V := fun v => ∃ x z, v = [x, .nil, .slice (ls.map (fun l => .raw (trimRight l))), z]) (within_seq (hstart _) (Q := fun _ => True) (fun _ _ _ _ => trivial)
    (within_seq (W := fun v => ∃ x, v = [.slice (ls.map (fun l => .raw (trimRight l))), x]) (Z := fun v => ∃ x, v = [.nil, .slice (ls.map (fun l => .raw (trimRight l))), x])
      hpred (Q := fun s => len s = n) (fun s x _ hx => ?_) hcont ?_) ?_) ?_) ?_
  · have := hset s
    have hx := eval_pred.mp hx
    rcases hp : S.pred set s (fence c n w ++ '\n' :: y) y with ⟨q, s'⟩
    rw [hp] at this hx
    obtain ⟨h1, h2⟩ := this
    dsimp only at h1 h2
    subst h1
    rw [hx]
    exact h2
  · rintro v w rfl ⟨x, rfl⟩; exact ⟨x, rfl⟩
  · rintro v w ⟨x, rfl⟩ ⟨z, rfl⟩; exact ⟨x, z, rfl⟩
  · rintro v ⟨x, z, rfl⟩; exact ⟨x, z, rfl⟩
  · rintro s v ⟨x, z, rfl⟩
    exact congrArg (fun x => [x]) (hA a s _ _ _ (ha _ _ _ _ _))

theorem exactly_fence {l : Text} : C49.exactly '-' 2 l = true ↔ Closes '-' 2 l := by
  unfold C49.exactly Closes fence
  rw [Bool.and_eq_true, beq_iff_eq, List.all_eq_true]
  constructor
  · rintro ⟨h1, h2⟩
    exact ⟨l.drop 2, h2, by rw [← h1, List.take_append_drop]⟩
  · rintro ⟨w, hw, rfl⟩
    exact ⟨rfl, hw⟩

/-- An open block. -/
theorem openV (hS : LenCode S len) (hA : Obeys A) {w w' : Text} (hw : ∀ x ∈ w, isBlank x = true) (hw' : ∀ x ∈ w', isBlank x = true) {ls : List Text}
    (hls : ∀ l ∈ ls, (∀ c ∈ l, isEol c = false) ∧ ¬ Closes '-' 2 l) (hz : Cut z r) {st : Text} :
    Exactly grammar S A st (.rule R.OpenBlock) (fence '-' 2 w ++ '\n' :: (unlines ls ++ (fence '-' 2 w' ++ z)))
      [.block .open_ [] (appendNewlines (ls.map (fun l => .raw (trimRight l))))] r := by
  have hin := fence_inline (c := '-') (n := 2) (by decide) hw
  have hin' := fence_inline (c := '-') (n := 2) (by decide) hw'
  have h0 : ∀ w z, fence '-' 2 w ++ z ≠ [] := by
    intro w z h
    have := congrArg List.length h
    simp [fence] at this
  have hd := C49.open_delimiter (S := S)
  have hcont : ∀ st n, Within grammar S A (fun s => len s = n) st (.seq (.rule R.OpenBlockContent) (.opt (.rule R.OpenBlockEndDelimiter))) (unlines ls ++ (fence '-' 2 w' ++ z))
      (fun v => ∃ x, v = [.slice (ls.map (fun l => .raw (trimRight l))), x]) r := fun st n => endV (k := 9) hS hA (C49.plain_end (by decide) rfl hd n) (id := 163) (by decide) (fun _ _ _ => rfl) rfl
    rfl hz hin' (h0 w' z) (exactly_fence.mpr ⟨w', hw', rfl⟩) (ls := ls) (fun l hl => ⟨(hls l hl).1, by
      cases hD : C49.exactly '-' 2 l with
      | false => rfl
      | true =>
        exact absurd (exactly_fence.mp hD) (hls l hl).2⟩)
  have hcont : ∀ st, Within grammar S A (fun _ => True) st (.seq (.rule R.OpenBlockContent) (.opt (.rule R.OpenBlockEndDelimiter))) (unlines ls ++ (fence '-' 2 w' ++ z))
      (fun v => ∃ x, v = [.slice (ls.map (fun l => .raw (trimRight l))), x]) r := fun st s x _ hx => hcont st (len s) s x rfl hx
  generalize hy : unlines ls ++ (fence '-' 2 w' ++ z) = y at hcont ⊢
  have hz1 : Cut ('\n' :: y) y := .line
  have hstart : ∀ st, Within grammar S A (fun _ => True) st (.rule R.OpenBlockStartDelimiter) (fence '-' 2 w ++ '\n' :: y) (fun v => ∃ x, v = [x]) y := by
    intro st
    refine within_single (k := 4) rfl (fun s x _ hx => ?_)
    have hy : Yields grammar S (.rule R.OpenBlockStartDelimiter) (fence '-' 2 w ++ '\n' :: y) (some y) := by
      refine yields_rule ?_
      refine (hd _).to ?_
      rw [firstLine_cut hz1 hin, exactly_fence.mpr ⟨w, hw, rfl⟩, afterLine_cut hz1 hin]
      rfl
    exact hy _ _ _ hx
  refine Within.exactly (within_rule ?_)
  show Within grammar S A _ _ (.act 162 (.scope (.seq (.rule R.OpenBlockStartDelimiter) (.seq (.rule R.OpenBlockContent) (.opt (.rule R.OpenBlockEndDelimiter)))))) _ _ _
  refine within_act (V := fun v => ∃ x z, v = [.slice [x, .slice (ls.map (fun l => .raw (trimRight l))), z]]) (within_scope
    (V := fun v => ∃ x z, v = [x, .slice (ls.map (fun l => .raw (trimRight l))), z]) (within_seq (hstart _) (Q := fun _ => True) (fun _ _ _ _ => trivial)
    (hcont _) ?_) ?_) ?_
  · rintro v w ⟨x, rfl⟩ ⟨z, rfl⟩; exact ⟨x, z, rfl⟩
  · rintro v ⟨x, z, rfl⟩; exact ⟨x, z, rfl⟩
  · rintro s v ⟨x, z, rfl⟩
    exact congrArg (fun x => [x]) (hA 162 s _ _ _ rfl)

end C62
end Verif
