import Verif.Model.Widths
import Verif.Model.Render
import Mathlib.Tactic.Linarith
import Mathlib.Tactic.FieldSimp
import Mathlib.Tactic.Ring
import Mathlib.Tactic.NormNum
import Mathlib.Tactic.Positivity
/-! C75: the widths of columns. -/
namespace Verif.C75
open Widths

/-! ### Specification -/

/-- The share of a column of this weight, in percent. -/
def share (w s : ℤ) : ℚ := 100 * w / s

/-- A ten-thousandth. -/
def unit : ℚ := 1 / 10 ^ 4

/-- The sum of widths that are numbers. -/
def total : List Width → ℚ
  | [] => 0
  | .percent x :: l => x + total l
  | _ :: l => total l

/-- Truncation in floating point numbers: not negative, at most the number, and less than it by at most one (if the product is a whole number, it may come out just below it). -/
def Truncates (cut : ℤ → ℤ → ℤ) : Prop := ∀ w s, 0 ≤ w → w ≤ s → 0 < s → 0 ≤ cut w s ∧ (cut w s : ℚ) * unit ≤ share w s ∧ share w s ≤ (cut w s + 1) * unit

/-! ### Six digits -/

theorem round_between {y : ℚ} {a b : ℤ} (h1 : (a : ℚ) ≤ y) (h2 : y ≤ b) : a ≤ round y ∧ round y ≤ b := by
  rw [round_eq]
  constructor
  · rw [Int.le_floor]; linarith
  · have : ⌊y + 1 / 2⌋ < b + 1 := by
      rw [Int.floor_lt]; push_cast; linarith
    omega

theorem log_le {x : ℚ} (h1 : x < 100) : Int.log 10 x ≤ 1 := by
  by_cases h0 : 0 < x
  · have : Int.log 10 x < 2 := by
      rw [← Int.lt_zpow_iff_log_lt (by norm_num) h0]
      norm_num
      exact h1
    omega
  · rw [Int.log_of_right_le_zero _ (not_lt.mp h0)]
    omega

/-- Numbers from 0 to 100 have at least four decimals: rounding does not leave the interval between two multiples of a ten-thousandth. -/
theorem sixDigits_between {x : ℚ} (h1 : x ≤ 100) {k : ℤ} (hk : (k : ℚ) * unit ≤ x) (hk' : x ≤ (k + 1) * unit) :
    (k : ℚ) * unit ≤ sixDigits x ∧ sixDigits x ≤ (k + 1) * unit := by
  rcases lt_or_eq_of_le h1 with h | h
  · obtain ⟨j, hj⟩ := Int.eq_ofNat_of_zero_le (show 0 ≤ 4 - 3 - Int.log 10 x from by have := log_le h; omega)
    have hm : 5 - Int.log 10 x = 4 + (j : ℤ) := by omega
    have hp : (10 : ℚ) ^ (5 - Int.log 10 x) = 10 ^ 4 * 10 ^ j := by
      rw [hm, zpow_add₀ (by norm_num)]
      norm_cast
    have hj0 : (0 : ℚ) < 10 ^ j := by positivity
    unfold sixDigits
    rw [hp]
    unfold unit at *
    have e1 : ((k * 10 ^ j : ℤ) : ℚ) ≤ x * (10 ^ 4 * 10 ^ j) := by
      push_cast
      have := mul_le_mul_of_nonneg_right hk (show (0 : ℚ) ≤ 10 ^ 4 * 10 ^ j by positivity)
      calc (k : ℚ) * 10 ^ j = k * (1 / 10 ^ 4) * (10 ^ 4 * 10 ^ j) := by field_simp
        _ ≤ _ := this
    have e2 : x * (10 ^ 4 * 10 ^ j) ≤ (((k + 1) * 10 ^ j : ℤ) : ℚ) := by
      push_cast
      have := mul_le_mul_of_nonneg_right hk' (show (0 : ℚ) ≤ 10 ^ 4 * 10 ^ j by positivity)
      calc _ ≤ ((k : ℚ) + 1) * (1 / 10 ^ 4) * (10 ^ 4 * 10 ^ j) := this
        _ = ((k : ℚ) + 1) * 10 ^ j := by field_simp
    obtain ⟨r1, r2⟩ := round_between e1 e2
    have r1' : ((k * 10 ^ j : ℤ) : ℚ) ≤ (round (x * (10 ^ 4 * 10 ^ j)) : ℚ) := by exact_mod_cast r1
    have r2' : (round (x * (10 ^ 4 * 10 ^ j)) : ℚ) ≤ (((k + 1) * 10 ^ j : ℤ) : ℚ) := by exact_mod_cast r2
    push_cast at r1' r2'
    constructor
    · rw [le_div_iff₀ (by positivity)]
      calc (k : ℚ) * (1 / 10 ^ 4) * (10 ^ 4 * 10 ^ j) = k * 10 ^ j := by field_simp
        _ ≤ _ := r1'
    · rw [div_le_iff₀ (by positivity)]
      calc _ ≤ ((k : ℚ) + 1) * 10 ^ j := r2'
        _ = ((k : ℚ) + 1) * (1 / 10 ^ 4) * (10 ^ 4 * 10 ^ j) := by field_simp
  · subst h
    have e : sixDigits 100 = 100 := by
      have hl : Int.log 10 (100 : ℚ) = 2 := by
        rw [show (100 : ℚ) = ((10 : ℕ) : ℚ) ^ (2 : ℤ) by norm_num, Int.log_zpow (by norm_num)]
      unfold sixDigits
      rw [hl, show (100 : ℚ) * 10 ^ ((5 : ℤ) - 2) = ((100000 : ℤ) : ℚ) by norm_num, round_intCast]
      norm_num
    rw [e]
    exact ⟨hk, hk'⟩

/-- Multiples of a ten-thousandth are not changed. -/
theorem sixDigits_exact {k : ℤ} (h : (k : ℚ) * unit ≤ 100) : sixDigits (k * unit) = k * unit := by
  have h1 := (sixDigits_between h (k := k) le_rfl (by unfold unit; linarith)).1
  have h2 := (sixDigits_between h (k := k - 1) (by unfold unit; push_cast; linarith) (by push_cast; linarith)).2
  push_cast at h2
  linarith

/-! ### The columns -/

/-- Shares of non-negative weights are at most 100. -/
theorem share_le {w s : ℤ} (h : w ≤ s) (hs : 0 < s) : share w s ≤ 100 := by
  have : (0 : ℚ) < s := by exact_mod_cast hs
  unfold share
  rw [div_le_iff₀ this]
  have : (w : ℚ) ≤ s := by exact_mod_cast h
  linarith

theorem written_share (w s : ℤ) : ((w * 100 : ℤ) : ℚ) / s = share w s := by
  unfold share; push_cast; ring

theorem written_rest (sum : ℤ) : ((10 ^ 6 - sum : ℤ) : ℚ) / 10 ^ 4 = ((10 ^ 6 - sum : ℤ) : ℚ) * unit := by
  unfold unit; ring

theorem rest_exact {sum : ℤ} (h : 0 ≤ sum) : sixDigits (((10 ^ 6 - sum : ℤ) : ℚ) / 10 ^ 4) = 100 - sum * unit := by
  have h' : (0 : ℚ) ≤ sum := by exact_mod_cast h
  rw [written_rest, sixDigits_exact]
  · unfold unit; push_cast; ring
  · unfold unit; push_cast; linarith

/-- What is written for the columns from some column on; `before` are the weights of the columns before. -/
theorem relative_near {cut : ℤ → ℤ → ℤ} (hc : Truncates cut) {s : ℤ} (hs : 0 < s) : ∀ (l before : List ℤ) (sum : ℤ), l ≠ [] → (∀ w ∈ l, 0 ≤ w ∧ w ≤ s) → 0 ≤ sum →
    before.sum + l.sum = s → (sum : ℚ) * unit ≤ share before.sum s → share before.sum s ≤ (sum + before.length) * unit →
    100 - sum * unit ≤ total (relative cut s l sum) ∧ total (relative cut s l sum) ≤ 100 - sum * unit + (l.length - 1) * unit ∧
    List.Forall₂ (fun w x => ∃ y, x = Width.percent y ∧ |y - share w s| ≤ (before.length + l.length) * unit) l (relative cut s l sum)
  | [], _, _, h, _, _, _, _, _ => absurd rfl h
  | [w], before, sum, _, _, h0, hsum, hlo, hhi => by
    have hs' : (0 : ℚ) < s := by exact_mod_cast hs
    have e : sixDigits (((10 ^ 6 - sum : ℤ) : ℚ) / 10 ^ 4) = 100 - sum * unit := rest_exact h0
    have hu : (0 : ℚ) < unit := by unfold unit; norm_num
    have hw : share w s = 100 - share before.sum s := by
      unfold share
      rw [← hsum]
      simp only [List.sum_cons, List.sum_nil, add_zero]
      have : ((before.sum + w : ℤ) : ℚ) ≠ 0 := by
        rw [show before.sum + w = s by simpa using hsum]; exact ne_of_gt hs'
      field_simp
      push_cast
      ring
    refine ⟨?_, ?_, .cons ⟨_, rfl, ?_⟩ .nil⟩
    · show _ ≤ sixDigits _ + 0
      rw [e]; linarith
    · show sixDigits _ + 0 ≤ _
      rw [e]; simp
    · rw [e, hw, abs_le]
      constructor
      · have : (0 : ℚ) ≤ (before.length + ([w] : List ℤ).length) * unit := by positivity
        linarith
      · simp only [List.length_cons, List.length_nil]
        push_cast
        linarith
  | w :: v :: l, before, sum, _, hw, h0, hsum, hlo, hhi => by
    have hs' : (0 : ℚ) < s := by exact_mod_cast hs
    have hu : (0 : ℚ) < unit := by unfold unit; norm_num
    have hw0 := hw w List.mem_cons_self
    obtain ⟨c0, c1, c2⟩ := hc w s hw0.1 hw0.2 hs
    have hx := sixDigits_between (share_le hw0.2 hs) c1 c2
    have hshare : share (before ++ [w]).sum s = share before.sum s + share w s := by
      unfold share
      rw [List.sum_append, List.sum_singleton]
      push_cast
      field_simp
    obtain ⟨r1, r2, r3⟩ := relative_near hc hs (v :: l) (before ++ [w]) (sum + cut w s) (List.cons_ne_nil _ _) (fun x hx => hw x (List.mem_cons_of_mem _ hx)) (by omega)
      (by rw [List.sum_append, List.sum_singleton, ← hsum]; simp only [List.sum_cons]; ring)
      (by rw [hshare]; push_cast; linarith) (by rw [hshare, List.length_append]; push_cast; simp only [List.length_singleton]; push_cast; linarith)
    have e : relative cut s (w :: v :: l) sum = .percent (sixDigits (share w s)) :: relative cut s (v :: l) (sum + cut w s) := by
      rw [← written_share]
      show (if s = 0 then Width.nan else _) :: _ = _
      rw [if_neg (ne_of_gt hs)]
    rw [e]
    refine ⟨?_, ?_, .cons ⟨_, rfl, ?_⟩ (r3.imp fun w' x hx => ?_)⟩
    · show _ ≤ sixDigits _ + total _
      push_cast at r1
      linarith
    · show sixDigits _ + total _ ≤ _
      simp only [List.length_cons] at r2 ⊢
      push_cast at r2 ⊢
      linarith
    · have hn : (1 : ℚ) ≤ before.length + (w :: v :: l).length := by
        simp only [List.length_cons]; push_cast
        have : (0 : ℚ) ≤ before.length := by positivity
        have : (0 : ℚ) ≤ l.length := by positivity
        linarith
      have : 1 * unit ≤ (before.length + (w :: v :: l).length) * unit := mul_le_mul_of_nonneg_right hn hu.le
      rw [abs_le]
      constructor <;> linarith
    · obtain ⟨y, e, hy⟩ := hx
      refine ⟨y, e, hy.trans (le_of_eq ?_)⟩
      rw [List.length_append]
      simp only [List.length_cons, List.length_nil]
      push_cast
      ring

theorem sum_nonneg {l : List ℤ} (h : ∀ w ∈ l, 0 ≤ w) : 0 ≤ l.sum := List.sum_nonneg h

theorem le_sum : ∀ {l : List ℤ}, (∀ w ∈ l, 0 ≤ w) → ∀ w ∈ l, w ≤ l.sum
  | x :: l, h, w, hw => by
    have h1 := sum_nonneg fun y hy => h y (List.mem_cons_of_mem x hy)
    have h2 := h x List.mem_cons_self
    rw [List.sum_cons]
    rcases List.mem_cons.mp hw with rfl | hw
    · omega
    · have := le_sum (fun y hy => h y (List.mem_cons_of_mem x hy)) w hw
      omega

/-- The columns have weights that are not negative, one of which is positive; none has the width `~`. -/
structure Weighted (cols : List Rend.Col) : Prop where
  fixed : ∀ c ∈ cols, c.autowidth = false
  weight : ∀ c ∈ cols, 0 ≤ c.weight
  some : ∃ c ∈ cols, 0 < c.weight

theorem weighted_relative {cols : List Rend.Col} (h : Weighted cols) (cut : ℤ → ℤ → ℤ) :
    widths cut false cols = relative cut (cols.map (·.weight)).sum (cols.map (·.weight)) 0 := by
  unfold widths
  rw [if_neg Bool.false_ne_true, if_neg]
  intro hh
  obtain ⟨c, hc, e⟩ := List.any_eq_true.mp hh
  rw [h.fixed c hc] at e
  cases e

theorem weighted_pos {cols : List Rend.Col} (h : Weighted cols) : 0 < (cols.map (·.weight)).sum := by
  obtain ⟨c, hc, hp⟩ := h.some
  have := le_sum (l := cols.map (·.weight)) (fun w hw => by obtain ⟨d, hd, rfl⟩ := List.mem_map.mp hw; exact h.weight d hd) _ (List.mem_map_of_mem hc)
  omega

theorem weighted_near {cut : ℤ → ℤ → ℤ} (hc : Truncates cut) {cols : List Rend.Col} (h : Weighted cols) :
    100 ≤ total (widths cut false cols) ∧ total (widths cut false cols) ≤ 100 + (cols.length - 1) * unit ∧
    List.Forall₂ (fun w x => ∃ y, x = Width.percent y ∧ |y - share w (cols.map (·.weight)).sum| ≤ cols.length * unit) (cols.map (·.weight)) (widths cut false cols) := by
  have hw : ∀ w ∈ cols.map (·.weight), 0 ≤ w := fun w hw => by obtain ⟨d, hd, rfl⟩ := List.mem_map.mp hw; exact h.weight d hd
  have hne : cols.map (·.weight) ≠ [] := by
    obtain ⟨c, hc, _⟩ := h.some
    exact fun e => absurd hc (by rw [List.map_eq_nil_iff.mp e]; simp)
  have := relative_near hc (weighted_pos h) (cols.map (·.weight)) [] 0 hne (fun w hm => ⟨hw w hm, le_sum hw w hm⟩) le_rfl (by simp) (by simp [share]) (by simp [share])
  rw [weighted_relative h]
  simpa using this

/-- The widths that are written add up to 100 or slightly more: for each column but the last, by at most a ten-thousandth. -/
theorem adds_up {cut : ℤ → ℤ → ℤ} (hc : Truncates cut) {cols : List Rend.Col} (h : Weighted cols) :
    100 ≤ total (widths cut false cols) ∧ total (widths cut false cols) ≤ 100 + (cols.length - 1) * unit :=
  ⟨(weighted_near hc h).1, (weighted_near hc h).2.1⟩

/-- Each column has its share, up to a ten-thousandth for each column. -/
theorem near_share {cut : ℤ → ℤ → ℤ} (hc : Truncates cut) {cols : List Rend.Col} (h : Weighted cols) {i : Nat} {c : Rend.Col} (hi : cols[i]? = some c) :
    ∃ y, (widths cut false cols)[i]? = some (.percent y) ∧ |y - share c.weight (cols.map (·.weight)).sum| ≤ cols.length * unit := by
  have hf := (weighted_near hc h).2.2
  have key : ∀ {l : List ℤ} {ws : List Width} {P : ℤ → Width → Prop}, List.Forall₂ P l ws → ∀ (i : Nat) (w : ℤ), l[i]? = some w → ∃ x, ws[i]? = some x ∧ P w x := by
    intro l ws P hf
    induction hf with
    | nil => intro i w h; simp at h
    | cons hp _ ih =>
      intro i w h
      cases i with
      | zero => cases h; exact ⟨_, rfl, hp⟩
      | succ i => exact ih i w h
  obtain ⟨x, hx, y, rfl, hy⟩ := key hf i c.weight (by rw [List.getElem?_map, hi]; rfl)
  exact ⟨y, hx, hy⟩

/-- One width for each column. -/
theorem one_each (cut : ℤ → ℤ → ℤ) (full : Bool) (cols : List Rend.Col) : (widths cut full cols).length = cols.length := by
  have key : ∀ s (l : List ℤ) sum, (relative cut s l sum).length = l.length := by
    intro s l
    induction l with
    | nil => intro _; rfl
    | cons w l ih =>
      intro sum
      cases l with
      | nil => rfl
      | cons v l => exact congrArg (· + 1) (ih _)
  unfold widths
  split
  · exact List.length_map _
  · split
    · exact List.length_map _
    · rw [key, List.length_map]

/-- With the option `autowidth`, no width is written. -/
theorem none_written (cut : ℤ → ℤ → ℤ) (cols : List Rend.Col) : ∀ x ∈ widths cut true cols, x = .unset := by
  intro x hx
  obtain ⟨c, _, e⟩ := List.mem_map.mp (show x ∈ cols.map fun _ => Width.unset from hx)
  exact e.symm

/-- If some column has the width `~`, the weights of the others are their widths. -/
theorem as_written (cut : ℤ → ℤ → ℤ) {cols : List Rend.Col} (h : ∃ c ∈ cols, c.autowidth = true) {i : Nat} {c : Rend.Col} (hi : cols[i]? = some c) :
    (widths cut false cols)[i]? = some (if c.autowidth then .unset else .percent c.weight) := by
  unfold widths
  rw [if_neg Bool.false_ne_true, if_pos (by obtain ⟨c, hc, e⟩ := h; exact List.any_eq_true.mpr ⟨c, hc, e⟩), List.getElem?_map, hi]
  rfl

/-- If the shares are whole numbers of ten-thousandths, and the truncation does not lose one, they are written exactly, and add up to 100. -/
theorem exact {cut : ℤ → ℤ → ℤ} {cols : List Rend.Col} (h : Weighted cols)
    (he : ∀ c ∈ cols, (cut c.weight (cols.map (·.weight)).sum : ℚ) * unit = share c.weight (cols.map (·.weight)).sum) :
    widths cut false cols = cols.map (fun c => .percent (share c.weight (cols.map (·.weight)).sum)) ∧ total (widths cut false cols) = 100 := by
  have hw : ∀ w ∈ cols.map (·.weight), 0 ≤ w := fun w hw => by obtain ⟨d, hd, rfl⟩ := List.mem_map.mp hw; exact h.weight d hd
  have hs := weighted_pos h
  have hne : cols.map (·.weight) ≠ [] := by
    obtain ⟨c, hc, _⟩ := h.some
    exact fun e => absurd hc (by rw [List.map_eq_nil_iff.mp e]; simp)
  have hs' : (0 : ℚ) < (cols.map (·.weight)).sum := by exact_mod_cast hs
  have hu : (0 : ℚ) < unit := by unfold unit; norm_num
  have key : ∀ (s : ℤ), 0 < s → (0 : ℚ) < s → ∀ (l before : List ℤ) (sum : ℤ), l ≠ [] → (∀ w ∈ l, 0 ≤ w ∧ w ≤ s ∧ (cut w s : ℚ) * unit = share w s) → 0 ≤ sum →
      before.sum + l.sum = s → (sum : ℚ) * unit = share before.sum s → relative cut s l sum = l.map fun w => .percent (share w s) := by
    intro s hs hs' l
    induction l with
    | nil => intro _ _ h; exact absurd rfl h
    | cons w l ih =>
      intro before sum _ hl h0 hb hsum
      have hw0 := hl w List.mem_cons_self
      cases l with
      | nil =>
        show [Width.percent (sixDigits _)] = _
        rw [rest_exact h0]
        have : share w s = 100 - share before.sum s := by
          have hb' : (before.sum : ℚ) + w = s := by exact_mod_cast (by simpa using hb : before.sum + w = s)
          unfold share
          field_simp
          linarith
        rw [hsum, ← this]
        rfl
      | cons v l =>
        have c0 : 0 ≤ cut w s := by
          have h1 : (0 : ℚ) ≤ share w s := by
            unfold share
            have : (0 : ℚ) ≤ w := by exact_mod_cast hw0.1
            positivity
          rw [← hw0.2.2] at h1
          have := nonneg_of_mul_nonneg_left h1 hu
          exact_mod_cast this
        have e : relative cut s (w :: v :: l) sum = .percent (sixDigits (share w s)) :: relative cut s (v :: l) (sum + cut w s) := by
          rw [← written_share]
          show (if s = 0 then Width.nan else _) :: _ = _
          rw [if_neg (ne_of_gt hs)]
        have hx : sixDigits (share w s) = share w s := by
          rw [← hw0.2.2]
          exact sixDigits_exact (by rw [hw0.2.2]; exact share_le hw0.2.1 hs)
        rw [e, hx, ih (before ++ [w]) (sum + cut w s) (List.cons_ne_nil _ _) (fun x hx => hl x (List.mem_cons_of_mem _ hx)) (by omega)
          (by rw [List.sum_append, List.sum_singleton, ← hb]; simp only [List.sum_cons]; ring)
          (by
            rw [List.sum_append, List.sum_singleton]
            push_cast
            rw [add_mul, hsum, hw0.2.2]
            unfold share
            push_cast
            field_simp)]
        rfl
  have hk := key _ hs hs' (cols.map (·.weight)) [] 0 hne (fun w hm => ⟨hw w hm, le_sum hw w hm, by obtain ⟨d, hd, rfl⟩ := List.mem_map.mp hm; exact he d hd⟩) le_rfl (by simp) (by simp [share])
  have e1 : widths cut false cols = cols.map (fun c => .percent (share c.weight (cols.map (·.weight)).sum)) := by
    rw [weighted_relative h, hk, List.map_map]
    rfl
  refine ⟨e1, ?_⟩
  have hsum : ∀ (s : ℤ), (0 : ℚ) < s → ∀ l : List Rend.Col, total (l.map fun c => Width.percent (share c.weight s)) = share (l.map (·.weight)).sum s := by
    intro s hs l
    induction l with
    | nil => simp [total, share]
    | cons c l ih =>
      show share c.weight s + total _ = _
      rw [ih, List.map_cons, List.sum_cons]
      unfold share
      push_cast
      field_simp
  rw [e1, hsum _ hs']
  unfold share
  field_simp

/-! ### Samples -/

/-- Truncation of the exact product. -/
def trunc (w s : ℤ) : ℤ := ⌊(10 ^ 6 * w : ℚ) / s⌋

theorem trunc_truncates : Truncates trunc := by
  intro w s h0 _ hs
  have hw : (0 : ℚ) ≤ w := by exact_mod_cast h0
  have hs' : (0 : ℚ) < s := by exact_mod_cast hs
  have e : share w s = (10 ^ 6 * w : ℚ) / s * unit := by
    unfold share unit
    field_simp
    ring
  have hu : (0 : ℚ) < unit := by unfold unit; norm_num
  refine ⟨Int.floor_nonneg.mpr (by positivity), ?_, ?_⟩
  · rw [e]
    exact mul_le_mul_of_nonneg_right (Int.floor_le _) hu.le
  · rw [e]
    exact mul_le_mul_of_nonneg_right (Int.lt_floor_add_one _).le hu.le

def col (w : ℤ) : Rend.Col := ⟨1, "<".toList, "<".toList, w, [], false⟩

theorem sample_weighted : Weighted [col 2, col 0, col 1] where
  fixed := by simp [col]
  weight := by simp [col]
  some := ⟨col 2, by simp, by decide⟩

/-- Finding (types.go:4038-4047): the first two columns of `cols="2,1"` get `66.6667` and `33.3334`: the first is rounded, but the last is what remains of 100 after the first was truncated. -/
theorem finding_two_to_one {cut : ℤ → ℤ → ℤ} (hc : Truncates cut) :
    widths cut false [col 2, col 1] = [.percent 66.6667, .percent 33.3334] ∧ total (widths cut false [col 2, col 1]) = 100 + unit := by
  have hcut : cut 2 3 = 666666 := by
    obtain ⟨_, c1, c2⟩ := hc 2 3 (by norm_num) (by norm_num) (by norm_num)
    unfold share unit at c1 c2
    have h1 : (cut 2 3 : ℚ) < 666667 := by push_cast at c1; linarith
    have h2 : (666665 : ℚ) < cut 2 3 := by push_cast at c2; linarith
    have h1' : cut 2 3 < 666667 := by exact_mod_cast h1
    have h2' : 666665 < cut 2 3 := by exact_mod_cast h2
    omega
  have hlog : Int.log 10 (200 / 3 : ℚ) = 1 := by
    have a : Int.log 10 (200 / 3 : ℚ) ≤ 1 := log_le (by norm_num)
    have b : (1 : ℤ) ≤ Int.log 10 (200 / 3 : ℚ) := by
      rw [← Int.zpow_le_iff_le_log (by norm_num) (by norm_num)]
      norm_num
    omega
  have h6 : sixDigits (200 / 3) = 66.6667 := by
    unfold sixDigits
    rw [hlog]
    have : round (200 / 3 * (10 : ℚ) ^ ((5 : ℤ) - 1)) = 666667 := by
      rw [round_eq, Int.floor_eq_iff]
      norm_num
    rw [this]
    norm_num
  have e : widths cut false [col 2, col 1] = [.percent 66.6667, .percent 33.3334] := by
    show [if (3 : ℤ) = 0 then Width.nan else .percent (sixDigits (((2 * 100 : ℤ) : ℚ) / (3 : ℤ))), .percent (sixDigits (((10 ^ 6 - (0 + cut 2 3) : ℤ) : ℚ) / 10 ^ 4))] = _
    rw [if_neg (by norm_num), rest_exact (by rw [hcut]; norm_num), hcut, show (((2 * 100 : ℤ) : ℚ) / (3 : ℤ)) = 200 / 3 by norm_num, h6]
    unfold unit
    norm_num
  refine ⟨e, ?_⟩
  rw [e]
  unfold total total total unit
  norm_num

/-- Finding: with `cols="0,0"` the weights add up to zero, and the width of the first column is `NaN`. -/
theorem finding_nan (cut : ℤ → ℤ → ℤ) : (widths cut false [col 0, col 0]).head? = some .nan := rfl

/-- Finding (types.go:4027, a comment in the code): if some column has the width `~`, the other widths are not checked: `cols="80,80,~"` asks for 160 percent. -/
theorem finding_over (cut : ℤ → ℤ → ℤ) : total (widths cut false [col 80, col 80, { col 0 with autowidth := true }]) = 160 := by
  show ((80 : ℤ) : ℚ) + (((80 : ℤ) : ℚ) + 0) = 160
  norm_num

/-! ### Which columns there are -/

/-- The columns of a table: those of `cols`, each as often as its multiplier says; and further ones of weight 1 for the other cells of the first row. -/
theorem which {attrs : Rend.Attrs} {rows : List (List (List Rend.El))} {l : List Rend.Col} (ha : AMap.get attrs "cols" = some (.cols (l.map some))) (c : Rend.Ctx) :
    Rend.columns attrs rows c = .ok (l.flatMap (fun d => List.replicate d.multiplier d) ++
      List.replicate ((rows.headD []).length - (l.map (·.multiplier)).sum) ⟨1, "<".toList, "<".toList, 1, [], false⟩, c) := by
  have key : ∀ l : List Rend.Col, Rend.colsOf (l.map some) c = .ok (l.flatMap (fun d => List.replicate d.multiplier d), c) := by
    intro l
    induction l with
    | nil => rfl
    | cons d l ih =>
      show Rend.M.bind (Rend.colsOf (l.map some)) _ c = _
      unfold Rend.M.bind
      rw [ih]
      rfl
  unfold Rend.columns
  show Rend.M.bind (Rend.colsAttr (AMap.get attrs "cols")) _ c = _
  rw [ha]
  show Rend.M.bind (Rend.colsOf (l.map some)) _ c = _
  unfold Rend.M.bind
  rw [key]
  show Except.ok (_ ++ List.replicate (_ - (l.flatMap fun d => List.replicate d.multiplier d).length) Rend.defaultCol, c) = _
  rw [List.length_flatMap]
  simp only [List.length_replicate]
  rfl

end Verif.C75
