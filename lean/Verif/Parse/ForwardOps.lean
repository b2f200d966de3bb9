import Mathlib.Tactic.IntervalCases
import Verif.Parse.ForwardTypes

/-!
When the grammar matches, continued: operators, and what may come after an expression.
-/

namespace Verif.Parse

open Verif.Front

variable {whole : List Char}

/-! ### The rules by precedence -/

/-- The rule of a precedence. -/
def ruleAt : Nat → Rule
  | 0 => .ex_logical
  | 1 => .ex_logical_not
  | 2 => .ex_comparison
  | 3 => .ex_bitwise
  | 4 => .ex_additive
  | 5 => .ex_multiplicative
  | 6 => .ex_inversion
  | 7 => .ex_exponential
  | 8 => .ex_attribute
  | _ => .expression_atom

/-- The rule of the operators of a precedence. -/
def opAt : Nat → Rule
  | 0 => .op2_log
  | 2 => .op2_cmp
  | 3 => .op2_bit
  | 4 => .op2_add
  | 5 => .op2_mul
  | 7 => .op2_exp
  | _ => .op2_attrib

/-- The rule of what comes after an operator. -/
def rightAt : Nat → Rule
  | 0 => .ex_logical_not
  | 2 => .ex_bitwise
  | 3 => .ex_additive
  | 4 => .ex_multiplicative
  | 5 => .ex_inversion
  | 7 => .ex_inversion
  | _ => .identifier

/-- An operator and what comes after it. -/
def item (k : Nat) : Peg Rule := .seq ows (.seq (.rule (opAt k)) (.seq ows (.rule (rightAt k))))

/-- The precedences that have operators. -/
def levels : List Nat := [0, 2, 3, 4, 5, 7, 8]

/-- What may come after an expression of this precedence. -/
structure After (whole : List Char) (k : Nat) (t rest : List Char) : Prop where
  name : NoName rest
  far : ∀ c u, trim rest = c :: u → ¬ NameChar c ∧ c ≠ '['
  version : NoVersion whole rest
  point : (∃ n, Group t n) ∨ k ≤ 8 → rest.head? ≠ some '.'
  items : ∀ j ∈ levels, k ≤ j → No dsdl whole (item j) rest

theorem After.weaken {k : Nat} {t rest : List Char} (h : After whole k t rest) : After whole (k + 1) t rest where
  name := h.name
  far := h.far
  version := h.version
  point hp := h.point (hp.imp id (by omega))
  items j hj hk := h.items j hj (by omega)

theorem After.text {k : Nat} {t u rest : List Char} (h : After whole k t rest) (hk : k ≤ 8) : After whole k u rest where
  name := h.name
  far := h.far
  version := h.version
  point _ := h.point (.inr hk)
  items := h.items

/-- Operators and the ends of expressions. -/
def symbols : List (Nat × Nat) := [(10, 10), (13, 13), (33, 33), (35, 35), (37, 38), (41, 45), (47, 47), (60, 62), (93, 94), (124, 125)]

instance {rs : List (Nat × Nat)} {n : Nat} : Decidable (within rs n) := by unfold within; infer_instance

theorem symbol_props {c : Char} (h : within symbols c.toNat) : ¬ NameChar c ∧ c ≠ '[' ∧ c ≠ ' ' ∧ c ≠ '\t' ∧ c ≠ '.' := by
  have e1 : 'a'.toNat = 97 := rfl
  have e2 : 'z'.toNat = 122 := rfl
  have e3 : 'A'.toNat = 65 := rfl
  have e4 : 'Z'.toNat = 90 := rfl
  have e5 : '_'.toNat = 95 := rfl
  have e6 : '0'.toNat = 48 := rfl
  have e7 : '9'.toNat = 57 := rfl
  have e8 : '['.toNat = 91 := rfl
  have e9 : ' '.toNat = 32 := rfl
  have e10 : '\t'.toNat = 9 := rfl
  have e11 : '.'.toNat = 46 := rfl
  obtain ⟨r, hr, h1, h2⟩ := h
  unfold NameChar NameStart
  simp only [char_le, char_eq, Ne]
  simp only [symbols, List.mem_cons, List.not_mem_nil, or_false] at hr
  rcases hr with rfl | rfl | rfl | rfl | rfl | rfl | rfl | rfl | rfl | rfl <;> simp only at h1 h2 <;> omega

theorem trim_blank {x s : List Char} (hx : Blank x) (hs : ∀ c u, s = c :: u → c ≠ ' ' ∧ c ≠ '\t') : trim (x ++ s) = s := by
  rw [trim_append hx, trim_self hs]

theorem after_of {k : Nat} {t x s : List Char} (hx : Blank x) (hs : Starts symbols s) (hi : ∀ j ∈ levels, k ≤ j → No dsdl whole (item j) (x ++ s)) :
    After whole k t (x ++ s) := by
  have htrim : trim (x ++ s) = s := trim_blank hx fun c u hc => ⟨(symbol_props (hs c u hc)).2.2.1, (symbol_props (hs c u hc)).2.2.2.1⟩
  have hhead : ∀ c u, x ++ s = c :: u → ¬ NameChar c ∧ c ≠ '.' := by
    intro c u hc
    cases x with
    | nil => exact ⟨(symbol_props (hs c u hc)).1, (symbol_props (hs c u hc)).2.2.2.2⟩
    | cons d x =>
      cases hc
      have := hx c (by simp)
      refine ⟨fun hh => ?_, ?_⟩
      · have := start_not_blank hh; tauto
      · rcases this with rfl | rfl <;> decide
  have hp : (x ++ s).head? ≠ some '.' := by
    intro hh
    cases hxs : x ++ s with
    | nil => rw [hxs] at hh; cases hh
    | cons c u => rw [hxs] at hh; cases hh; exact (hhead _ _ hxs).2 rfl
  refine ⟨fun c u hc => (hhead c u hc).1, ?_, noVersion_of hp, fun _ => hp, hi⟩
  intro c u hc
  rw [htrim] at hc
  exact ⟨(symbol_props (hs c u hc)).1, (symbol_props (hs c u hc)).2.1⟩

theorem item_no {j : Nat} {x s : List Char} (hx : Blank x) (hs : ∀ c u, s = c :: u → c ≠ ' ' ∧ c ≠ '\t') (h : No dsdl whole (.rule (opAt j)) s) :
    No dsdl whole (item j) (x ++ s) := noSeq' (ows_ok hx hs) (noSeq h)

/-- The characters at which an expression ends. -/
def ends : List (Nat × Nat) := [(10, 10), (13, 13), (35, 35), (41, 41), (44, 44), (93, 93), (125, 125)]

theorem ends_symbols {s : List Char} (h : Starts ends s) : Starts symbols s := by
  intro c u hc
  obtain ⟨r, hr, h1, h2⟩ := h c u hc
  simp only [ends, List.mem_cons, List.not_mem_nil, or_false] at hr
  rcases hr with rfl | rfl | rfl | rfl | rfl | rfl | rfl <;> simp only at h1 h2
  · exact ⟨(10, 10), by decide, h1, h2⟩
  · exact ⟨(13, 13), by decide, h1, h2⟩
  · exact ⟨(35, 35), by decide, h1, h2⟩
  · exact ⟨(41, 45), by decide, by simp only; omega, by simp only; omega⟩
  · exact ⟨(41, 45), by decide, by simp only; omega, by simp only; omega⟩
  · exact ⟨(93, 94), by decide, by simp only; omega, by simp only; omega⟩
  · exact ⟨(124, 125), by decide, by simp only; omega, by simp only; omega⟩

theorem starts_not_blank {s : List Char} (hs : Starts symbols s) : ∀ c u, s = c :: u → c ≠ ' ' ∧ c ≠ '\t' :=
  fun c u hc => ⟨(symbol_props (hs c u hc)).2.2.1, (symbol_props (hs c u hc)).2.2.2.1⟩

/-- Where an expression ends. -/
theorem after_end {t x s : List Char} (hx : Blank x) (hs : Starts ends s) : After whole 0 t (x ++ s) := by
  refine after_of hx (ends_symbols hs) ?_
  intro j hj _
  refine item_no hx (starts_not_blank (ends_symbols hs)) ?_
  simp only [levels, List.mem_cons, List.not_mem_nil, or_false] at hj
  rcases hj with rfl | rfl | rfl | rfl | rfl | rfl | rfl <;> exact no_starts hs rfl (by decide +kernel)

theorem after_char {t x s : List Char} {c : Char} (hx : Blank x) (hc : c ∈ ['\n', '\r', '#', ')', ',', ']', '}']) : After whole 0 t (x ++ c :: s) := by
  refine after_end hx (starts_cons ?_)
  simp only [List.mem_cons, List.not_mem_nil, or_false] at hc
  rcases hc with rfl | rfl | rfl | rfl | rfl | rfl | rfl
  · exact ⟨(10, 10), by decide, by decide⟩
  · exact ⟨(13, 13), by decide, by decide⟩
  · exact ⟨(35, 35), by decide, by decide⟩
  · exact ⟨(41, 41), by decide, by decide⟩
  · exact ⟨(44, 44), by decide, by decide⟩
  · exact ⟨(93, 93), by decide, by decide⟩
  · exact ⟨(125, 125), by decide, by decide⟩

/-! ### Operators -/

/-- The characters that an expression may begin with. -/
def exprStart : List (Nat × Nat) := [(33, 34), (39, 40), (43, 43), (45, 46), (48, 57), (65, 90), (95, 95), (97, 123)]

/-- Each range is in another one. -/
def covered (a b : List (Nat × Nat)) : Bool := a.all fun r => b.any fun q => decide (q.1 ≤ r.1 ∧ r.2 ≤ q.2)

theorem within_of_covered {a b : List (Nat × Nat)} (h : covered a b = true) {n : Nat} (hn : within a n) : within b n := by
  obtain ⟨r, hr, h1, h2⟩ := hn
  obtain ⟨q, hq, h3⟩ := List.any_eq_true.1 (List.all_eq_true.1 h r hr)
  simp only [decide_eq_true_eq] at h3
  exact ⟨q, hq, h3.1.trans h1, h2.trans h3.2⟩

theorem expr_starts {k : Nat} (hk : k ≤ 9) {t rest : List Char} {ps} (h : Ok dsdl whole (.rule (ruleAt k)) (t ++ rest) ps rest) : ∃ c u, t = c :: u ∧ within exprStart c.toNat := by
  have hn : (ruleAt k).nullable = false := by interval_cases k <;> rfl
  obtain ⟨c, u, h1, h2⟩ := starts_of_ok h hn
  refine ⟨c, u, h1, within_of_covered ?_ h2⟩
  interval_cases k <;> decide +kernel

theorem exprStart_props {c : Char} (h : within exprStart c.toNat) : c ≠ ' ' ∧ c ≠ '\t' ∧ c ≠ '=' ∧ c ≠ '*' ∧ c ≠ '<' ∧ c ≠ '}' := by
  have e1 : ' '.toNat = 32 := rfl
  have e2 : '\t'.toNat = 9 := rfl
  have e3 : '='.toNat = 61 := rfl
  have e4 : '*'.toNat = 42 := rfl
  have e5 : '<'.toNat = 60 := rfl
  have e6 : '}'.toNat = 125 := rfl
  obtain ⟨r, hr, h1, h2⟩ := h
  simp only [char_eq, Ne]
  simp only [exprStart, List.mem_cons, List.not_mem_nil, or_false] at hr
  rcases hr with rfl | rfl | rfl | rfl | rfl | rfl | rfl | rfl <;> simp only at h1 h2 <;> omega

/-- A text that begins with white space or an expression. -/
def Operand (v : List Char) : Prop := ∃ c u, v = c :: u ∧ c ≠ '=' ∧ c ≠ '*'

theorem operand_of {y u rest : List Char} (hy : Blank y) (hu : ∃ c v, u = c :: v ∧ within exprStart c.toNat) : Operand (y ++ (u ++ rest)) := by
  obtain ⟨c, v, rfl, hc⟩ := hu
  cases y with
  | nil => exact ⟨c, v ++ rest, rfl, (exprStart_props hc).2.2.1, (exprStart_props hc).2.2.2.1⟩
  | cons d y =>
    refine ⟨d, _, rfl, ?_⟩
    rcases hy d (by simp) with rfl | rfl <;> decide

theorem noTwo {l : String} {a b c : Char} (hl : l.toList = [a, b]) {v : List Char} (hv : ∀ d u, v = d :: u → d ≠ b) : No dsdl whole (.lit l) (c :: v) := by
  rw [no_lit, hl]
  rintro ⟨u, hu⟩
  simp only [List.cons_append, List.nil_append, List.cons.injEq] at hu
  exact hv b u hu.2.symm rfl

theorem op_ok {s : String} {op : BinOp} {k : Nat} (h : (s, op, k) ∈ operators) {v : List Char} (hv : Operand v) :
    ∃ q, Ok dsdl whole (.rule (opAt k)) (s.toList ++ v) [q] v ∧ binaryOf (ruleAt k) (deepestRule q) = .ok op := by
  obtain ⟨c, u, rfl, hc, -⟩ := hv
  have heq : ∀ d w, c :: u = d :: w → d ≠ '=' := by intro d w hd; cases hd; exact hc
  simp only [operators, List.mem_cons, List.not_mem_nil, or_false, Prod.mk.injEq] at h
  rcases h with ⟨rfl, rfl, rfl⟩ | ⟨rfl, rfl, rfl⟩ | ⟨rfl, rfl, rfl⟩ | ⟨rfl, rfl, rfl⟩ | ⟨rfl, rfl, rfl⟩ | ⟨rfl, rfl, rfl⟩ | ⟨rfl, rfl, rfl⟩ | ⟨rfl, rfl, rfl⟩ |
    ⟨rfl, rfl, rfl⟩ | ⟨rfl, rfl, rfl⟩ | ⟨rfl, rfl, rfl⟩ | ⟨rfl, rfl, rfl⟩ | ⟨rfl, rfl, rfl⟩ | ⟨rfl, rfl, rfl⟩ | ⟨rfl, rfl, rfl⟩ | ⟨rfl, rfl, rfl⟩
  · exact ⟨_, okRule (okLeft (okRule okLit)), rfl⟩
  · exact ⟨_, okRule (okRight (noRule (noLit (by decide))) (okRule okLit)), rfl⟩
  · exact ⟨_, okRule (okLeft (okRule okLit)), rfl⟩
  · exact ⟨_, okRule (okRight (noRule (noLit (by decide))) (okRight (noRule (noLit (by decide))) (okRight (noRule (noLit (by decide))) (okLeft (okRule okLit))))), rfl⟩
  · exact ⟨_, okRule (okRight (noRule (noLit (by decide))) (okRight (noRule (noLit (by decide))) (okLeft (okRule okLit)))), rfl⟩
  · exact ⟨_, okRule (okRight (noRule (noLit (by decide))) (okLeft (okRule okLit))), rfl⟩
  · exact ⟨_, okRule (okRight (noRule (noLit (by decide))) (okRight (noRule (noLit (by decide))) (okRight (noRule (noTwo rfl heq)) (okRight (noRule (noLit (by decide)))
      (okLeft (okRule okLit)))))), rfl⟩
  · exact ⟨_, okRule (okRight (noRule (noLit (by decide))) (okRight (noRule (noTwo rfl heq)) (okRight (noRule (noLit (by decide))) (okRight (noRule (noLit (by decide)))
      (okRight (noRule (noLit (by decide))) (okRule okLit)))))), rfl⟩
  · exact ⟨_, okRule (okLeft (okRule okLit)), rfl⟩
  · exact ⟨_, okRule (okRight (noRule (noLit (by decide))) (okLeft (okRule okLit))), rfl⟩
  · exact ⟨_, okRule (okRight (noRule (noLit (by decide))) (okRight (noRule (noLit (by decide))) (okRule okLit))), rfl⟩
  · exact ⟨_, okRule (okLeft (okRule okLit)), rfl⟩
  · exact ⟨_, okRule (okRight (noRule (noLit (by decide))) (okRule okLit)), rfl⟩
  · exact ⟨_, okRule (okLeft (okRule okLit)), rfl⟩
  · exact ⟨_, okRule (okRight (noRule (noLit (by decide))) (okLeft (okRule okLit))), rfl⟩
  · exact ⟨_, okRule (okRight (noRule (noLit (by decide))) (okRight (noRule (noLit (by decide))) (okRule okLit))), rfl⟩

/-- Before an operator, everything that binds tighter has ended. -/
theorem after_op {s : String} {op : BinOp} {k : Nat} (h : (s, op, k) ∈ operators) {t x v : List Char} (hx : Blank x) (hv : Operand v) :
    After whole (k + 1) t (x ++ (s.toList ++ v)) := by
  obtain ⟨c, u, rfl, -, hc⟩ := hv
  have hstar : ∀ d w, c :: u = d :: w → d ≠ '*' := by intro d w hd; cases hd; exact hc
  have hb : ∀ {d : Char} {w : List Char}, within symbols d.toNat → ∀ c u, d :: w = c :: u → c ≠ ' ' ∧ c ≠ '\t' := fun hd => starts_not_blank (starts_cons hd)
  have bit : ∀ {d : Char} {w : List Char}, d = '|' ∨ d = '&' → No dsdl whole (item 3) (x ++ d :: d :: w) := by
    intro d w hd
    have hd' : within symbols d.toNat := by
      rcases hd with rfl | rfl
      · exact ⟨(124, 125), by decide, by decide⟩
      · exact ⟨(37, 38), by decide, by decide⟩
    have hop : ∃ q, Ok dsdl whole (.rule .op2_bit) (d :: d :: w) [q] (d :: w) := by
      rcases hd with rfl | rfl
      · exact ⟨_, okRule (t := ['|']) (okLeft (okRule (t := ['|']) (okChar rfl)))⟩
      · exact ⟨_, okRule (t := ['&']) (okRight (noRule (noLit (b := ['&']) (by decide))) (okRight (noRule (noLit (b := ['&']) (by decide))) (okRule (t := ['&']) (okChar rfl))))⟩
    obtain ⟨q, hop⟩ := hop
    refine noSeq' (ows_ok hx (hb hd')) (noSeq' hop (noSeq' (ows_ok (x := []) nofun (hb hd')) ?_))
    rcases hd with rfl | rfl
    · exact no_starts starts_char rfl (by decide +kernel)
    · exact no_starts starts_char rfl (by decide +kernel)
  have one : ∀ {j : Nat} {d : Char} {w : List Char}, within symbols d.toNat → (opAt j).nullable = false → apart [(d.toNat, d.toNat)] (firsts 80 (.rule (opAt j))) = true →
      No dsdl whole (item j) (x ++ d :: w) := fun hd h1 h2 => item_no hx (hb hd) (no_starts starts_char h1 h2)
  simp only [operators, List.mem_cons, List.not_mem_nil, or_false, Prod.mk.injEq] at h
  rcases h with ⟨rfl, rfl, rfl⟩ | ⟨rfl, rfl, rfl⟩ | ⟨rfl, rfl, rfl⟩ | ⟨rfl, rfl, rfl⟩ | ⟨rfl, rfl, rfl⟩ | ⟨rfl, rfl, rfl⟩ | ⟨rfl, rfl, rfl⟩ | ⟨rfl, rfl, rfl⟩ |
    ⟨rfl, rfl, rfl⟩ | ⟨rfl, rfl, rfl⟩ | ⟨rfl, rfl, rfl⟩ | ⟨rfl, rfl, rfl⟩ | ⟨rfl, rfl, rfl⟩ | ⟨rfl, rfl, rfl⟩ | ⟨rfl, rfl, rfl⟩ | ⟨rfl, rfl, rfl⟩
  · show After whole _ t (x ++ '|' :: '|' :: c :: u)
    refine after_of hx (starts_cons (by decide)) ?_
    intro j hj hk
    simp only [levels, List.mem_cons, List.not_mem_nil, or_false] at hj
    rcases hj with rfl | rfl | rfl | rfl | rfl | rfl | rfl
    · omega
    · exact one (by decide) rfl (by decide +kernel)
    · exact bit (.inl rfl)
    · exact one (by decide) rfl (by decide +kernel)
    · exact one (by decide) rfl (by decide +kernel)
    · exact one (by decide) rfl (by decide +kernel)
    · exact one (by decide) rfl (by decide +kernel)
  · show After whole _ t (x ++ '&' :: '&' :: c :: u)
    refine after_of hx (starts_cons (by decide)) ?_
    intro j hj hk
    simp only [levels, List.mem_cons, List.not_mem_nil, or_false] at hj
    rcases hj with rfl | rfl | rfl | rfl | rfl | rfl | rfl
    · omega
    · exact one (by decide) rfl (by decide +kernel)
    · exact bit (.inr rfl)
    · exact one (by decide) rfl (by decide +kernel)
    · exact one (by decide) rfl (by decide +kernel)
    · exact one (by decide) rfl (by decide +kernel)
    · exact one (by decide) rfl (by decide +kernel)
  · show After whole _ t (x ++ '=' :: '=' :: c :: u)
    refine after_of hx (starts_cons (by decide)) ?_
    intro j hj hk
    simp only [levels, List.mem_cons, List.not_mem_nil, or_false] at hj
    rcases hj with rfl | rfl | rfl | rfl | rfl | rfl | rfl
    · omega
    · omega
    · exact one (by decide) rfl (by decide +kernel)
    · exact one (by decide) rfl (by decide +kernel)
    · exact one (by decide) rfl (by decide +kernel)
    · exact one (by decide) rfl (by decide +kernel)
    · exact one (by decide) rfl (by decide +kernel)
  · show After whole _ t (x ++ '!' :: '=' :: c :: u)
    refine after_of hx (starts_cons (by decide)) ?_
    intro j hj hk
    simp only [levels, List.mem_cons, List.not_mem_nil, or_false] at hj
    rcases hj with rfl | rfl | rfl | rfl | rfl | rfl | rfl
    · omega
    · omega
    · exact one (by decide) rfl (by decide +kernel)
    · exact one (by decide) rfl (by decide +kernel)
    · exact one (by decide) rfl (by decide +kernel)
    · exact one (by decide) rfl (by decide +kernel)
    · exact one (by decide) rfl (by decide +kernel)
  · show After whole _ t (x ++ '<' :: '=' :: c :: u)
    refine after_of hx (starts_cons (by decide)) ?_
    intro j hj hk
    simp only [levels, List.mem_cons, List.not_mem_nil, or_false] at hj
    rcases hj with rfl | rfl | rfl | rfl | rfl | rfl | rfl
    · omega
    · omega
    · exact one (by decide) rfl (by decide +kernel)
    · exact one (by decide) rfl (by decide +kernel)
    · exact one (by decide) rfl (by decide +kernel)
    · exact one (by decide) rfl (by decide +kernel)
    · exact one (by decide) rfl (by decide +kernel)
  · show After whole _ t (x ++ '>' :: '=' :: c :: u)
    refine after_of hx (starts_cons (by decide)) ?_
    intro j hj hk
    simp only [levels, List.mem_cons, List.not_mem_nil, or_false] at hj
    rcases hj with rfl | rfl | rfl | rfl | rfl | rfl | rfl
    · omega
    · omega
    · exact one (by decide) rfl (by decide +kernel)
    · exact one (by decide) rfl (by decide +kernel)
    · exact one (by decide) rfl (by decide +kernel)
    · exact one (by decide) rfl (by decide +kernel)
    · exact one (by decide) rfl (by decide +kernel)
  · show After whole _ t (x ++ '<' :: c :: u)
    refine after_of hx (starts_cons (by decide)) ?_
    intro j hj hk
    simp only [levels, List.mem_cons, List.not_mem_nil, or_false] at hj
    rcases hj with rfl | rfl | rfl | rfl | rfl | rfl | rfl
    · omega
    · omega
    · exact one (by decide) rfl (by decide +kernel)
    · exact one (by decide) rfl (by decide +kernel)
    · exact one (by decide) rfl (by decide +kernel)
    · exact one (by decide) rfl (by decide +kernel)
    · exact one (by decide) rfl (by decide +kernel)
  · show After whole _ t (x ++ '>' :: c :: u)
    refine after_of hx (starts_cons (by decide)) ?_
    intro j hj hk
    simp only [levels, List.mem_cons, List.not_mem_nil, or_false] at hj
    rcases hj with rfl | rfl | rfl | rfl | rfl | rfl | rfl
    · omega
    · omega
    · exact one (by decide) rfl (by decide +kernel)
    · exact one (by decide) rfl (by decide +kernel)
    · exact one (by decide) rfl (by decide +kernel)
    · exact one (by decide) rfl (by decide +kernel)
    · exact one (by decide) rfl (by decide +kernel)
  · show After whole _ t (x ++ '|' :: c :: u)
    refine after_of hx (starts_cons (by decide)) ?_
    intro j hj hk
    simp only [levels, List.mem_cons, List.not_mem_nil, or_false] at hj
    rcases hj with rfl | rfl | rfl | rfl | rfl | rfl | rfl
    · omega
    · omega
    · omega
    · exact one (by decide) rfl (by decide +kernel)
    · exact one (by decide) rfl (by decide +kernel)
    · exact one (by decide) rfl (by decide +kernel)
    · exact one (by decide) rfl (by decide +kernel)
  · show After whole _ t (x ++ '^' :: c :: u)
    refine after_of hx (starts_cons (by decide)) ?_
    intro j hj hk
    simp only [levels, List.mem_cons, List.not_mem_nil, or_false] at hj
    rcases hj with rfl | rfl | rfl | rfl | rfl | rfl | rfl
    · omega
    · omega
    · omega
    · exact one (by decide) rfl (by decide +kernel)
    · exact one (by decide) rfl (by decide +kernel)
    · exact one (by decide) rfl (by decide +kernel)
    · exact one (by decide) rfl (by decide +kernel)
  · show After whole _ t (x ++ '&' :: c :: u)
    refine after_of hx (starts_cons (by decide)) ?_
    intro j hj hk
    simp only [levels, List.mem_cons, List.not_mem_nil, or_false] at hj
    rcases hj with rfl | rfl | rfl | rfl | rfl | rfl | rfl
    · omega
    · omega
    · omega
    · exact one (by decide) rfl (by decide +kernel)
    · exact one (by decide) rfl (by decide +kernel)
    · exact one (by decide) rfl (by decide +kernel)
    · exact one (by decide) rfl (by decide +kernel)
  · show After whole _ t (x ++ '+' :: c :: u)
    refine after_of hx (starts_cons (by decide)) ?_
    intro j hj hk
    simp only [levels, List.mem_cons, List.not_mem_nil, or_false] at hj
    rcases hj with rfl | rfl | rfl | rfl | rfl | rfl | rfl
    · omega
    · omega
    · omega
    · omega
    · exact one (by decide) rfl (by decide +kernel)
    · exact one (by decide) rfl (by decide +kernel)
    · exact one (by decide) rfl (by decide +kernel)
  · show After whole _ t (x ++ '-' :: c :: u)
    refine after_of hx (starts_cons (by decide)) ?_
    intro j hj hk
    simp only [levels, List.mem_cons, List.not_mem_nil, or_false] at hj
    rcases hj with rfl | rfl | rfl | rfl | rfl | rfl | rfl
    · omega
    · omega
    · omega
    · omega
    · exact one (by decide) rfl (by decide +kernel)
    · exact one (by decide) rfl (by decide +kernel)
    · exact one (by decide) rfl (by decide +kernel)
  · show After whole _ t (x ++ '*' :: c :: u)
    refine after_of hx (starts_cons (by decide)) ?_
    intro j hj hk
    simp only [levels, List.mem_cons, List.not_mem_nil, or_false] at hj
    rcases hj with rfl | rfl | rfl | rfl | rfl | rfl | rfl
    · omega
    · omega
    · omega
    · omega
    · omega
    · exact item_no hx (hb (by decide)) (noRule (noRule (noTwo rfl hstar)))
    · exact one (by decide) rfl (by decide +kernel)
  · show After whole _ t (x ++ '/' :: c :: u)
    refine after_of hx (starts_cons (by decide)) ?_
    intro j hj hk
    simp only [levels, List.mem_cons, List.not_mem_nil, or_false] at hj
    rcases hj with rfl | rfl | rfl | rfl | rfl | rfl | rfl
    · omega
    · omega
    · omega
    · omega
    · omega
    · exact one (by decide) rfl (by decide +kernel)
    · exact one (by decide) rfl (by decide +kernel)
  · show After whole _ t (x ++ '%' :: c :: u)
    refine after_of hx (starts_cons (by decide)) ?_
    intro j hj hk
    simp only [levels, List.mem_cons, List.not_mem_nil, or_false] at hj
    rcases hj with rfl | rfl | rfl | rfl | rfl | rfl | rfl
    · omega
    · omega
    · omega
    · omega
    · omega
    · exact one (by decide) rfl (by decide +kernel)
    · exact one (by decide) rfl (by decide +kernel)

/-- The same for `**`. -/
theorem after_power {t x v : List Char} (hx : Blank x) : After whole 8 t (x ++ ("**".toList ++ v)) := by
  show After whole _ t (x ++ '*' :: '*' :: v)
  refine after_of hx (starts_cons (by decide)) ?_
  intro j hj hk
  simp only [levels, List.mem_cons, List.not_mem_nil, or_false] at hj
  have : j = 8 := by omega
  subst this
  exact item_no hx (starts_not_blank (starts_cons (by decide))) (no_starts starts_char rfl (by decide +kernel))

end Verif.Parse
