import Verif.Parse.Complete

/-!
Every definition that is written as the parser accepts it is matched as a whole, and the parser gives its lines.
-/

namespace Verif.Parse

open Verif.Front

variable {whole : List Char}

/-! ### Statements -/

/-- The characters that come after a statement and white space, if there are any. -/
def lineEnds : List (Nat × Nat) := [(10, 10), (13, 13), (35, 35)]

theorem lineEnds_ends {s : List Char} (h : Starts lineEnds s) : Starts ends s := by
  intro c u hc
  obtain ⟨r, hr, h1, h2⟩ := h c u hc
  refine ⟨r, ?_, h1, h2⟩
  simp only [lineEnds, ends, List.mem_cons, List.not_mem_nil, or_false] at hr ⊢
  tauto

theorem lineEnds_props {s : List Char} (h : Starts lineEnds s) : ∀ c u, s = c :: u → c ≠ ' ' ∧ c ≠ '\t' ∧ c ≠ '=' ∧ c ≠ '-' ∧ c ≠ '[' ∧ ¬ NameStart c := by
  intro c u hc
  obtain ⟨r, hr, h1, h2⟩ := h c u hc
  have hn : c.toNat = 10 ∨ c.toNat = 13 ∨ c.toNat = 35 := by
    simp only [lineEnds, List.mem_cons, List.not_mem_nil, or_false] at hr
    rcases hr with rfl | rfl | rfl <;> simp only at h1 h2 <;> omega
  have : c = '\n' ∨ c = '\r' ∨ c = '#' := by
    rcases hn with h | h | h
    · exact .inl (char_eq.2 h)
    · exact .inr (.inl (char_eq.2 h))
    · exact .inr (.inr (char_eq.2 h))
  rcases this with rfl | rfl | rfl <;> decide

theorem blanks_noName {x s : List Char} (hx : Blanks x) : NoName (x ++ s) ∧ (x ++ s).head? ≠ some '.' := by
  obtain ⟨h1, h2⟩ := hx
  cases x with
  | nil => exact absurd rfl h2
  | cons c x =>
    have := h1 c (by simp)
    refine ⟨?_, ?_⟩
    · intro d u hd
      cases hd
      rcases this with rfl | rfl <;> decide
    · simp only [List.cons_append, List.head?_cons, ne_eq, Option.some.injEq]
      rcases this with rfl | rfl <;> decide

theorem name_not_blank {n s : List Char} (hn : Name n) : ∀ c u, n ++ s = c :: u → c ≠ ' ' ∧ c ≠ '\t' := by
  obtain ⟨c, cs, rfl, hc⟩ := hn.cons
  intro d u hd
  cases hd
  refine start_not_blank ?_
  exact .inl hc

theorem ws_name {x n s : List Char} (hx : Blanks x) (hn : Name n) : Ok dsdl whole (.rule .ws) (x ++ (n ++ s)) [] (n ++ s) := by
  have h := ws_ok (whole := whole) (s := n ++ s) hx
  rwa [trim_self (name_not_blank hn)] at h

/-- White space and then no name. -/
theorem no_ws_name {e : Peg Rule} {x s : List Char} (hx : Blank x) (hs : ∀ c u, s = c :: u → c ≠ ' ' ∧ c ≠ '\t' ∧ ¬ NameStart c) :
    No dsdl whole (.seq (.rule .ws) (.seq (.rule .identifier) e)) (x ++ s) ∧ No dsdl whole (.seq (.rule .ws) (.rule .identifier)) (x ++ s) := by
  have hb : ∀ c u, s = c :: u → c ≠ ' ' ∧ c ≠ '\t' := fun c u hc => ⟨(hs c u hc).1, (hs c u hc).2.1⟩
  by_cases hne : x = []
  · subst hne
    have := ws_no (whole := whole) hb
    exact ⟨noSeq this, noSeq this⟩
  · have h := ws_ok (whole := whole) (s := s) ⟨hx, hne⟩
    rw [trim_self hb] at h
    have hn : No dsdl whole (.rule .identifier) s := name_no fun c u hc => (hs c u hc).2.2
    exact ⟨noSeq' h (noSeq hn), noSeq' h hn⟩

/-- Neither a directive nor a response marker. -/
theorem statement_attribute_ok {t rest : List Char} {p : Pair Rule} {r : Rule} {a : List Char} {ps : List (Pair Rule)} {u v : List Char}
    (hs : Ok dsdl whole (.rule r) (u ++ v) ps v) (hu : t ++ rest = u ++ v ++ a)
    (hr : r.nullable = false) (hf : apart (firsts 80 (.rule r)) (firsts 80 (.rule .statement_directive)) = true ∧
      apart (firsts 80 (.rule r)) (firsts 80 (.rule .statement_service_response_marker)) = true)
    (h : Ok dsdl whole (.rule .statement_attribute) (t ++ rest) [p] rest) : Ok dsdl whole (.rule .statement) (t ++ rest) [p] rest := by
  obtain ⟨c, w, rfl, hw⟩ := starts_of_ok hs hr
  have hst : Starts (firsts 80 (.rule r)) (t ++ rest) := by
    rw [hu]
    exact starts_cons hw
  exact okSilent (okRight (no_starts hst rfl hf.1) (okRight (no_starts hst rfl hf.2) h))

/-- Adds a statement before the lines that follow. -/
def Adds (ls : List Line) (ps : List (Pair Rule)) : Prop := ∀ qs r, parseLines qs = .ok r → parseLines (ps ++ qs) = .ok (ls ++ r.1, r.2)

theorem Adds.nil : Adds [] [] := fun _ _ h => h

theorem Adds.append {ls ls' ps ps'} (h : Adds ls ps) (h' : Adds ls' ps') : Adds (ls ++ ls') (ps ++ ps') := by
  intro qs r hr
  rw [List.append_assoc, List.append_assoc]
  exact h _ _ (h' _ _ hr)

theorem adds_directive {t qs s} (h : parseDirective (.node .statement_directive t qs) = .ok s) : Adds [.statement s] [.node .statement_directive t qs] := by
  intro qs r hr
  rw [List.singleton_append, parseLines]
  simp only [Pair.rule, h, hr, bind_ok', Bool.or_false]

theorem adds_constant {t qs s} (h : parseConstant (.node .statement_constant t qs) = .ok s) : Adds [.statement s] [.node .statement_constant t qs] := by
  intro qs r hr
  rw [List.singleton_append, parseLines]
  simp only [Pair.rule, h, hr, bind_ok', Bool.or_false]

theorem adds_field {t qs s} (h : parseField (.node .statement_field t qs) = .ok s) : Adds [.statement s] [.node .statement_field t qs] := by
  intro qs r hr
  rw [List.singleton_append, parseLines]
  simp only [Pair.rule, h, hr, bind_ok', Bool.or_false]

theorem adds_padding {t qs s} (h : parsePaddingField (.node .statement_padding_field t qs) = .ok s) : Adds [.statement s] [.node .statement_padding_field t qs] := by
  intro qs r hr
  rw [List.singleton_append, parseLines]
  simp only [Pair.rule, h, hr, bind_ok', Bool.or_false]

theorem directive_ok {n x s : List Char} (hn : Name n) (hx : Blank x) (hs : Starts lineEnds s) :
    ∃ p, Ok dsdl whole (.rule .statement) ('@' :: n ++ (x ++ s)) [p] (x ++ s) ∧ Adds [.statement (.directive (String.ofList n) none)] [p] := by
  have ha := after_end (whole := whole) (t := n) hx (lineEnds_ends hs)
  have hp := lineEnds_props hs
  have hb : ∀ c u, s = c :: u → c ≠ ' ' ∧ c ≠ '\t' := fun c u hc => ⟨(hp c u hc).1, (hp c u hc).2.1⟩
  have hname := name_ok (whole := whole) hn ha.name
  have hno : No dsdl whole (.seq (.rule .ws) (.rule .expression)) (x ++ s) := by
    by_cases hne : x = []
    · subst hne; exact noSeq (ws_no hb)
    · have h := ws_ok (whole := whole) (s := s) ⟨hx, hne⟩
      rw [trim_self hb] at h
      exact noSeq' h (no_starts hs rfl (by decide +kernel))
  refine ⟨.node .statement_directive ('@' :: n) [.node .statement_directive_without_expression ('@' :: n) [.node .identifier n []]],
    okSilent (okLeft (okRule (okRight (noRule (noSeq' (okChar (l := "@") rfl) (noSeq' hname hno))) (okRule (okSeq0 (okChar (l := "@") (c := '@') rfl) hname))))), adds_directive ?_⟩
  simp only [parseDirective, Pair.inner, first, bind_ok', Pair.rule, text_node]

theorem directiveExpr_ok {n x t y s : List Char} {e : Expr} (hn : Name n) (hx : Blanks x) (he : Written accepted (.expr 0 e) t) (hy : Blank y) (hs : Starts lineEnds s) :
    ∃ p, Ok dsdl whole (.rule .statement) ('@' :: n ++ x ++ t ++ (y ++ s)) [p] (y ++ s) ∧ Adds [.statement (.directive (String.ofList n) (some e))] [p] := by
  obtain ⟨q, h1, h2, h3⟩ := expression_ok (complete (whole := whole) he) (after_end hy (lineEnds_ends hs))
  have hw := ws_ok (whole := whole) (s := t ++ (y ++ s)) hx
  rw [trim_self (not_blank_of h3)] at hw
  have hname := name_ok (whole := whole) hn (blanks_noName (s := t ++ (y ++ s)) hx).1
  refine ⟨.node .statement_directive ('@' :: n ++ x ++ t) [.node .statement_directive_with_expression ('@' :: n ++ x ++ t) [.node .identifier n [], q]],
    okSilent (okLeft (okRule (okLeft (okRule (okAt (okSeq0 (okChar (l := "@") (c := '@') rfl) (okSeq1 hname (okSeq0 hw h1))) (by simp)))))), adds_directive ?_⟩
  simp only [parseDirective, Pair.inner, first, bind_ok', Pair.rule, text_node, h2]

theorem constant_ok {p : Prim} {t x n y z u w s : List Char} {e : Expr} (ht : PrimText p t) (hx : Blanks x) (hn : Name n) (hy : Blank y) (hz : Blank z)
    (he : Written accepted (.expr 0 e) u) (hw : Blank w) (hs : Starts lineEnds s) :
    ∃ q, Ok dsdl whole (.rule .statement) (t ++ x ++ n ++ y ++ '=' :: z ++ u ++ (w ++ s)) [q] (w ++ s) ∧ Adds [.statement (.constant p (String.ofList n) e)] [q] := by
  obtain ⟨q, h1, h2, h3⟩ := expression_ok (complete (whole := whole) he) (after_end hw (lineEnds_ends hs))
  have hb : ∀ (s : List Char) c u, '=' :: s = c :: u → c ≠ ' ' ∧ c ≠ '\t' := by intro s c u hc; cases hc; decide
  have hny : ∀ v : List Char, NoName (y ++ '=' :: v) := by
    intro v c u hc
    cases y with
    | nil => cases hc; decide
    | cons d y => cases hc; rcases hy c (by simp) with rfl | rfl <;> decide
  obtain ⟨ps, h4, h5⟩ := prim_ok (whole := whole) ht (blanks_noName (s := n ++ (y ++ '=' :: (z ++ (u ++ (w ++ s))))) hx).1
  refine ⟨.node .statement_constant (t ++ x ++ n ++ y ++ '=' :: z ++ u) [.node .type_primitive t ps, .node .identifier n [], q],
    statement_attribute_ok (r := .type_primitive) (a := []) h4 (by simp) rfl ⟨by decide +kernel, by decide +kernel⟩ (okSilent (okLeft (okRule (okAt
      (okSeq1 h4 (okSeq0 (ws_name hx hn) (okSeq1 (name_ok hn (hny _)) (okSeq0 (ows_ok hy (hb _)) (okSeq0 (okChar (l := "=") rfl) (okSeq0 (ows_ok hz (not_blank_of h3)) h1))))))
      (by simp))))), adds_constant ?_⟩
  simp only [parseConstant, Pair.inner, h5, h2, bind_ok', text_node]

/-- No constant where a name is not followed by white space. -/
theorem constant_no {n s : List Char} (hn : Name n) : No dsdl whole (.rule .statement_constant) (n ++ '.' :: s) := by
  refine (total .statement_constant _).resolve_left ?_
  rintro ⟨ps, rest, h⟩
  obtain ⟨t, ht, hd⟩ := h.derives
  have key : ∃ a d r, t = a ++ d :: r ∧ (∀ c ∈ a, NameChar c) ∧ (d = ' ' ∨ d = '\t') := by
    obtain ⟨qs, hd, -⟩ := (d_normal (g := dsdl) rfl).1 hd
    replace hd : Derives dsdl (.seq (.rule .type_primitive) (.seq (.rule .ws) (.seq (.rule .identifier) (.seq ows (.seq (.lit "=") (.seq ows (.rule .expression))))))) t qs := hd
    obtain ⟨a, _, b, _, h1, h2, rfl, -⟩ := d_seq.1 hd
    obtain ⟨x, _, y, _, h3, -, rfl, -⟩ := d_seq.1 h2
    obtain ⟨-, hx⟩ := ws_text h3
    have next : ∀ (a x y : List Char), (∀ c ∈ a, NameChar c) → Blanks x → ∃ a' d r, a ++ (x ++ y) = a' ++ d :: r ∧ (∀ c ∈ a', NameChar c) ∧ (d = ' ' ∨ d = '\t') := by
      intro a x y ha hx
      obtain ⟨hx1, hx2⟩ := hx
      cases x with
      | nil => exact absurd rfl hx2
      | cons d x => exact ⟨a, d, x ++ y, rfl, ha, hx1 d (by simp)⟩
    have digits : ∀ c : Char, '0' ≤ c → c ≤ '9' → NameChar c := fun c h1 h2 => .inr ⟨h1, h2⟩
    have suffix : ∀ c : Char, '1' ≤ c → c ≤ '9' → NameChar c := fun c h1 h2 => .inr ⟨Char.le_trans (by decide) h1, h2⟩
    have name : ∀ {a ps}, Derives dsdl (.rule .type_primitive_name) a ps → ∀ c ∈ a, NameChar c := by
      intro a ps h
      have sized : ∀ {r : Rule} {l : String} {a ps}, r.silent = false → r.body = .seq (.lit l) (.rule .type_bit_length_suffix) → (∀ c ∈ l.toList, NameChar c) →
          Derives dsdl (.rule r) a ps → ∀ c ∈ a, NameChar c := by
        intro r l a ps hr hb hl h
        obtain ⟨qs, h, -⟩ := (d_normal (g := dsdl) hr).1 h
        replace h : Derives dsdl r.body a qs := h
        rw [hb] at h
        obtain ⟨_, _, v, _, h1, h2, rfl, -⟩ := d_seq.1 h
        obtain ⟨rfl, -⟩ := d_lit.1 h1
        obtain ⟨qs, h2, -⟩ := (d_normal (g := dsdl) rfl).1 h2
        replace h2 : Derives dsdl Rule.type_bit_length_suffix.body v qs := h2
        have h2 := h2.only (S := NameChar) (by simp only [Rule.body, Peg.Only, many]; exact ⟨suffix, digits⟩)
        intro c hc
        exact (List.mem_append.1 hc).elim (hl c) (h2 c)
      obtain ⟨qs, h, -⟩ := (d_normal (g := dsdl) rfl).1 h
      rcases d_choice.1 h with h | h
      · exact sized (r := .type_primitive_name_unsigned_integer) rfl rfl (by decide) h
      rcases d_choice.1 h with h | h
      · exact sized (r := .type_primitive_name_signed_integer) rfl rfl (by decide) h
      · exact sized (r := .type_primitive_name_floating_point) rfl rfl (by decide) h
    have word : ∀ {r : Rule} {l : String} {a ps}, r.silent = false → r.body = .lit l → (∀ c ∈ l.toList, NameChar c) → Derives dsdl (.rule r) a ps → ∀ c ∈ a, NameChar c := by
      intro r l a ps hr hb hl h
      obtain ⟨qs, h, -⟩ := (d_normal (g := dsdl) hr).1 h
      replace h : Derives dsdl r.body a qs := h
      rw [hb] at h
      obtain ⟨rfl, -⟩ := d_lit.1 h
      exact hl
    have mode : ∀ {l : String} {a ps}, (∀ c ∈ l.toList, NameChar c) → Derives dsdl (.seq (.lit l) (.rule .ws)) a ps → ∀ v, ∃ a' d r, a ++ v = a' ++ d :: r ∧ (∀ c ∈ a', NameChar c) ∧ (d = ' ' ∨ d = '\t') := by
      intro l a ps hl h v
      obtain ⟨_, _, w, _, h1, h2, rfl, -⟩ := d_seq.1 h
      obtain ⟨rfl, -⟩ := d_lit.1 h1
      rw [List.append_assoc]
      exact next _ _ _ hl (ws_text h2).2
    obtain ⟨qs, h1, -⟩ := (d_normal (g := dsdl) rfl).1 h1
    rcases d_choice.1 h1 with h | h
    · obtain ⟨qs, h, -⟩ := (d_normal (g := dsdl) rfl).1 h
      obtain ⟨_, _, v, _, h4, h5, rfl, -⟩ := d_seq.1 h
      obtain ⟨w, _, z, _, h6, -, rfl, -⟩ := d_seq.1 h5
      have := mode (by decide) (d_seq.2 ⟨_, _, _, _, h4, h6, rfl, rfl⟩) (z ++ (x ++ y))
      simpa using this
    rcases d_choice.1 h with h | h
    · obtain ⟨qs, h, -⟩ := (d_normal (g := dsdl) rfl).1 h
      obtain ⟨v, _, w, _, h4, h5, rfl, -⟩ := d_seq.1 h
      rcases d_opt.1 h4 with ⟨rfl, -⟩ | h4
      · exact next _ _ _ (name h5) hx
      · have := mode (by decide) h4 (w ++ (x ++ y))
        simpa using this
    rcases d_choice.1 h with h | h
    · obtain ⟨qs, h, -⟩ := (d_normal (g := dsdl) rfl).1 h
      exact next _ _ _ (word (r := .type_primitive_name_boolean) rfl rfl (by decide) h) hx
    rcases d_choice.1 h with h | h
    · exact next _ _ _ (word (r := .type_primitive_name_utf8) rfl rfl (by decide) h) hx
    · exact next _ _ _ (word (r := .type_primitive_name_byte) rfl rfl (by decide) h) hx
  obtain ⟨a, d, r, rfl, ha, hd'⟩ := key
  obtain ⟨c, cs, hcs, hn1, hn2⟩ := hn
  have hna : ∀ e ∈ n, NameChar e := by
    intro e he
    rw [hcs] at he
    rcases List.mem_cons.1 he with rfl | he
    · exact .inl hn1
    · exact hn2 e he
  clear hcs hn1 hn2 h hd
  rw [List.append_assoc, List.cons_append] at ht
  clear c cs
  induction a generalizing n with
  | nil =>
    cases n with
    | nil => cases ht; revert hd'; decide
    | cons e n =>
      obtain ⟨rfl, -⟩ := List.cons.inj ht
      have := start_not_blank (hna _ List.mem_cons_self)
      tauto
  | cons b a ih =>
    cases n with
    | nil =>
      cases ht
      exact absurd (ha '.' (by simp)) (by decide)
    | cons e n =>
      exact ih (List.cons.inj ht).2 (fun c hc => ha c (List.mem_cons_of_mem _ hc)) (fun c hc => hna c (List.mem_cons_of_mem _ hc))

/-- What comes after the type of a field leaves no constant there. -/
structure FieldEnd (whole : List Char) (v : List Char) : Prop where
  name : NoName v
  version : NoVersion whole v
  far : No dsdl whole (.seq (.rule .ws) (.seq (.rule .identifier) (.seq ows (.seq (.lit "=") (.seq ows (.rule .expression)))))) v

theorem no_constant {sc : ScalarTy} {t v : List Char} (ht : ScalarText sc t) (hv : FieldEnd whole v) : No dsdl whole (.rule .statement_constant) (t ++ v) := by
  cases ht with
  | prim ht =>
    obtain ⟨ps, h1, -⟩ := prim_ok (whole := whole) ht hv.name
    exact noRule (noSeq' h1 hv.far)
  | void => exact no_starts (starts_char (c := 'v')) rfl (by decide +kernel)
  | @versioned ns n p a b _ _ hp =>
    obtain ⟨m, u, hm, rfl, hu⟩ := hp.name
    cases u with
    | nil => exact noAt (constant_no (s := a ++ '.' :: b ++ v) hm) (by simp)
    | cons c u =>
      obtain rfl : c = '.' := by simpa using hu
      exact noAt (constant_no (s := u ++ '.' :: a ++ '.' :: b ++ v) hm) (by simp)

/-- The part of a field after its type. -/
theorem fieldEnd_name {x n y s : List Char} (hx : Blanks x) (hn : Name n) (hy : Blank y) (hs : Starts lineEnds s) : FieldEnd whole (x ++ (n ++ (y ++ s))) where
  name := (blanks_noName hx).1
  version := noVersion_of (blanks_noName hx).2
  far := by
    have hp := lineEnds_props hs
    refine noSeq' (ws_name hx hn) (noSeq' (name_ok hn (after_end (whole := whole) (t := n) hy (lineEnds_ends hs)).name) (noSeq' (ows_ok hy ?_) (noSeq (noChar (c := '=') rfl ?_))))
    · exact fun c u hc => ⟨(hp c u hc).1, (hp c u hc).2.1⟩
    · exact fun c u hc => (hp c u hc).2.2.1

/-- The part of an array after the type of its elements. -/
theorem fieldEnd_array {x s : List Char} (hx : Blank x) : FieldEnd whole (x ++ '[' :: s) := by
  have hc : ∀ c u, x ++ '[' :: s = c :: u → ¬ NameChar c ∧ c ≠ '.' := by
    intro c u hc
    cases x with
    | nil => cases hc; decide
    | cons d x =>
      cases hc
      rcases hx c (by simp) with rfl | rfl <;> decide
  refine ⟨fun c u h => (hc c u h).1, noVersion_of ?_, (no_ws_name hx ?_).1⟩
  · intro hh
    cases hxv : x ++ '[' :: s with
    | nil => rw [hxv] at hh; cases hh
    | cons c u => rw [hxv] at hh; cases hh; exact (hc _ _ hxv).2 rfl
  · intro c u hc; cases hc; decide

theorem field_ok {e : Expr} {ty : TypeAst} {t x n y s : List Char} (ht : Written accepted (.expr 9 e) t) (hty : FieldType e ty) (hx : Blanks x) (hn : Name n) (hy : Blank y) (hs : Starts lineEnds s) :
    ∃ q, Ok dsdl whole (.rule .statement) (t ++ x ++ n ++ (y ++ s)) [q] (y ++ s) ∧ Adds [.statement (.field ty (String.ofList n))] [q] := by
  have hfar := fieldEnd_name (whole := whole) hx hn hy hs
  have key : fieldTypeAllowed ty = true ∧ No dsdl whole (.rule .statement_constant) (t ++ (x ++ (n ++ (y ++ s)))) ∧
      ∃ c, Ok dsdl whole (.rule .dtype) (t ++ (x ++ (n ++ (y ++ s)))) [.node .dtype t [c]] (x ++ (n ++ (y ++ s))) ∧ parseArrayOrScalar c = .ok ty := by
    cases ht with
    | @scalarType sc _ hsc =>
      obtain ⟨rfl, h1, h2⟩ := hty
      refine ⟨?_, no_constant hsc hfar, scalar_dtype hsc hfar.name hfar.version ?_⟩
      · cases sc with
        | prim p => cases p <;> first | rfl | exact absurd rfl h1 | exact absurd rfl h2
        | _ => rfl
      · rw [trim_append hx.1, trim_self (name_not_blank hn)]
        obtain ⟨c, cs, rfl, hc⟩ := hn.cons
        intro d u hd
        cases hd
        rintro rfl
        revert hc; decide
    | @arrayType sc t' k x' y' z' w' e' u' hsc hx' hy' hz' hw' hk he =>
      obtain ⟨rfl, h1⟩ := hty
      refine ⟨?_, ?_, array_ok hsc hx' hy' hz' hw' hk (complete he)⟩
      · cases sc with
        | prim p =>
          cases k with
          | fixed => cases p <;> first | rfl | exact absurd ⟨rfl, rfl⟩ h1
          | _ => cases p <;> rfl
        | _ => rfl
      · exact noAt (no_constant hsc (fieldEnd_array (s := y' ++ (arrayOpen k ++ (z' ++ (u' ++ (w' ++ ']' :: (x ++ (n ++ (y ++ s)))))))) hx')) (by simp)
    | tighter h => exact absurd h (by decide)
    | binary h => simp [operators] at h
    | _ => exact False.elim hty
  obtain ⟨hall, hno, c, h1, h2⟩ := key
  refine ⟨.node .statement_field (t ++ x ++ n) [.node .dtype t [c], .node .identifier n []],
    statement_attribute_ok (r := .dtype) (a := []) h1 (by simp) rfl ⟨by decide +kernel, by decide +kernel⟩ (okSilent (okRight (noAt hno (by simp)) (okLeft (okRule (okAt
      (okSeq1 h1 (okSeq0 (ws_name hx hn) (name_ok hn (after_end (whole := whole) (t := n) hy (lineEnds_ends hs)).name))) (by simp)))))), adds_field ?_⟩
  simp only [parseField, Pair.inner, parseDataType, first, h2, bind_ok', text_node, hall, if_true]

theorem padding_ok {n : Nat} {t x s : List Char} (ht : ScalarText (.void n) t) (hx : Blank x) (hs : Starts lineEnds s) :
    ∃ q, Ok dsdl whole (.rule .statement) (t ++ (x ++ s)) [q] (x ++ s) ∧ Adds [.statement (.padding n)] [q] := by
  have ha := after_end (whole := whole) (t := t) hx (lineEnds_ends hs)
  have hp := lineEnds_props hs
  obtain ⟨c, h1, -⟩ := scalar_dtype (whole := whole) ht ha.name ha.version fun d u hd => (ha.far d u hd).2
  cases ht with
  | @void d _ hd h2 h3 =>
    obtain ⟨ps, h4, h5⟩ := void_ok (whole := whole) hd h2 h3 ha.name
    have hst : Starts [(118, 118)] ("void".toList ++ d ++ (x ++ s)) := starts_cons (by decide)
    refine ⟨.node .statement_padding_field ("void".toList ++ d) [.node .type_void ("void".toList ++ d) ps], okSilent (okRight (no_starts hst rfl (by decide +kernel))
      (okRight (no_starts hst rfl (by decide +kernel)) (okSilent (okRight (no_starts hst rfl (by decide +kernel)) (okRight (noRule (noSeq' h1
        (no_ws_name (e := .eoi) hx fun c u hc => ⟨(hp c u hc).1, (hp c u hc).2.1, (hp c u hc).2.2.2.2.2⟩).2)) (okRule (okSeq1 h4 (okLit (l := ""))))))))), adds_padding ?_⟩
    simp only [parsePaddingField, Pair.inner, first, bind_ok', h5]

theorem marker_ok {t x s : List Char} (h : 3 ≤ t.length) (ht : ∀ c ∈ t, c = '-') (hx : Blank x) (hs : Starts lineEnds s) :
    ∃ q, Ok dsdl whole (.rule .statement) (t ++ (x ++ s)) [q] (x ++ s) ∧ Adds [.statement .responseMarker] [q] := by
  obtain ⟨u, rfl⟩ : ∃ u, t = "---".toList ++ u := by
    match t, h with
    | a :: b :: c :: u, _ =>
      obtain rfl := ht a (by simp)
      obtain rfl := ht b (by simp)
      obtain rfl := ht c (by simp)
      exact ⟨u, rfl⟩
  have hst : Starts [(45, 45)] ("---".toList ++ u ++ (x ++ s)) := starts_cons (by decide)
  refine ⟨.node .statement_service_response_marker ("---".toList ++ u) [], okSilent (okRight (no_starts hst rfl (by decide +kernel)) (okLeft (okRule (okAt
    (okSeq0 (okLit (l := "---")) ((class_char (l := "-") (c := '-')).star (t := u) (fun c hc => ht c (by simp [hc])) ?_)) (by simp))))), ?_⟩
  · intro c v hc
    cases x with
    | nil => exact (lineEnds_props hs c v hc).2.2.2.1
    | cons d x => cases hc; rcases hx c (by simp) with rfl | rfl <;> decide
  · intro qs r hr
    rw [List.singleton_append, parseLines]
    simp only [Pair.rule, hr, bind_ok', Bool.or_false]

/-- A statement is matched as a whole and read. -/
theorem statement_ok {st : Statement} {t x s : List Char} (h : StatementText accepted st t) (hx : Blank x) (hs : Starts lineEnds s) :
    ∃ q, Ok dsdl whole (.rule .statement) (t ++ (x ++ s)) [q] (x ++ s) ∧ Adds [.statement st] [q] := by
  cases h with
  | directive hn => exact directive_ok hn hx hs
  | directiveExpr hn hy he => exact directiveExpr_ok hn hy he hx hs
  | constant ht h1 h2 h3 h4 h5 =>
    cases ht with
    | prim ht => exact constant_ok ht h1 h2 h3 h4 h5 hx hs
  | field ht hty h1 hn => exact field_ok ht hty h1 hn hx hs
  | padding ht => exact padding_ok ht hx hs
  | responseMarker h1 h2 => exact marker_ok h1 h2 hx hs

/-! ### Lines -/

/-- What comes after a line: its end, or nothing. -/
def eols : List (Nat × Nat) := [(10, 10), (13, 13)]

theorem eols_lineEnds {s : List Char} (h : Starts eols s) : Starts lineEnds s := by
  intro c u hc
  obtain ⟨r, hr, h1, h2⟩ := h c u hc
  refine ⟨r, ?_, h1, h2⟩
  simp only [lineEnds, eols, List.mem_cons, List.not_mem_nil, or_false] at hr ⊢
  tauto

theorem comment_ok {c s : List Char} (h1 : '\r' ∉ c) (h2 : '\n' ∉ c) (hs : Starts eols s) :
    ∃ q, Ok dsdl whole (.rule .comment) ('#' :: c ++ s) [q] s ∧ Adds [.comment (String.ofList c)] [q] := by
  refine ⟨.node .comment_content c [], okSilent (okSeq0 (okChar (l := "#") (c := '#') rfl) (okRule ((class_except (x := '\r') (y := '\n') rfl rfl).star ?_ ?_))), ?_⟩
  · intro d hd
    exact ⟨fun h => h1 (h ▸ hd), fun h => h2 (h ▸ hd)⟩
  · intro d u hd
    obtain ⟨r, hr, h3, h4⟩ := hs d u hd
    simp only [eols, List.mem_cons, List.not_mem_nil, or_false] at hr
    rintro ⟨h5, h6⟩
    rcases hr with rfl | rfl <;> simp only at h3 h4
    · exact h6 (char_eq.2 (show d.toNat = 10 by omega))
    · exact h5 (char_eq.2 (show d.toNat = 13 by omega))
  · intro qs r hr
    rw [List.singleton_append, parseLines]
    simp only [Pair.rule, hr, bind_ok', Bool.or_false, text_node]

theorem line_ok {ls : List Line} {t s : List Char} (h : LineText accepted ls t) (hs : Starts eols s) : ∃ ps, Ok dsdl whole (.rule .line) (t ++ s) ps s ∧ Adds ls ps := by
  have hno : ∀ {x s : List Char}, Blank x → Starts lineEnds s → No dsdl whole (.rule .statement) (x ++ s) := by
    intro x s hx hs
    cases x with
    | nil => exact no_starts hs rfl (by decide +kernel)
    | cons c x => rcases hx c (by simp) with rfl | rfl <;> exact no_starts starts_char rfl (by decide +kernel)
  have hb : ∀ {s : List Char}, Starts lineEnds s → ∀ c u, s = c :: u → c ≠ ' ' ∧ c ≠ '\t' :=
    fun hs c u hc => ⟨(lineEnds_props hs c u hc).1, (lineEnds_props hs c u hc).2.1⟩
  have hcs : ∀ {c : List Char}, Starts lineEnds ('#' :: c) := starts_cons (by decide)
  have hl := eols_lineEnds hs
  have none : Ok dsdl whole (.opt (.rule .comment)) s [] s := by
    refine okNone (no_rule.2 (noSeq (noChar (c := '#') rfl ?_)))
    rintro d u hd rfl
    have := hs _ _ hd
    revert this; decide
  cases h with
  | @empty x hx => exact ⟨[], okSilent (okSeq0 (okNone (hno hx hl)) (okSeq0 (ows_ok hx (hb hl)) none)), .nil⟩
  | @statement st t x hst hx =>
    obtain ⟨q, h1, h2⟩ := statement_ok (whole := whole) hst hx hl
    exact ⟨[q], okSilent (okAt (okSeq1 (okSome h1) (okSeq0 (ows_ok hx (hb hl)) none)) (by simp)), h2⟩
  | @comment x c hx h1 h2 =>
    obtain ⟨q, h3, h4⟩ := comment_ok (whole := whole) h1 h2 hs
    exact ⟨[q], okSilent (okAt (okSeq0 (okNone (hno hx hcs)) (okSeq0 (ows_ok hx (hb hcs)) (okSome h3))) (by simp)), h4⟩
  | @both st t x c hst hx h1 h2 =>
    obtain ⟨q, h3, h4⟩ := comment_ok (whole := whole) h1 h2 hs
    obtain ⟨q', h5, h6⟩ := statement_ok (whole := whole) hst hx hcs
    exact ⟨[q', q], okSilent (okAt (okSeq1 (okSome h5) (okSeq0 (ows_ok hx (hb hcs)) (okSome h3))) (by simp)), h6.append h4⟩

theorem definition_ok {ls : List Line} {t : List Char} (h : DefinitionText accepted ls t) :
    ∃ ps qs r, Ok dsdl whole (.rule .line) t ps r ∧ Ok dsdl whole (many (.seq (.rule .end_of_line) (.rule .line))) r qs [] ∧ Adds ls (ps ++ qs) := by
  induction h with
  | @last ls t h =>
    obtain ⟨ps, h1, h2⟩ := line_ok (whole := whole) (s := []) h nofun
    rw [List.append_nil] at h1
    refine ⟨ps, [], [], h1, okNil (noSeq (no_starts (cls := []) nofun rfl (by decide +kernel))), ?_⟩
    rw [List.append_nil]
    exact h2
  | @line ls t e ls' u h he _ ih =>
    obtain ⟨ps', qs', r', h1, h2, h3⟩ := ih
    have hse : Starts eols (e ++ u) := by
      rcases he with rfl | rfl
      · exact starts_cons ⟨(10, 10), by decide, by decide⟩
      · exact starts_cons ⟨(13, 13), by decide, by decide⟩
    obtain ⟨ps, h4, h5⟩ := line_ok (whole := whole) h hse
    have h6 : Ok dsdl whole (.rule .end_of_line) (e ++ u) [] u := by
      rcases he with rfl | rfl
      · refine okSilent (okSeq0 (okNone (noChar (c := '\r') rfl ?_)) (okChar (l := "\n") rfl))
        intro d v hd; cases hd; decide
      · exact okSilent (okSeq0 (okSome (okChar (l := "\r") (c := '\r') rfl)) (okChar (l := "\n") rfl))
    refine ⟨ps, ps' ++ qs', e ++ u, okAt h4 (by simp), okCons (okSeq0 h6 h1) h2, h5.append h3⟩

/-- The parser gives the lines of every text that is written as it accepts it. -/
theorem parse_complete {text : String} {ls : List Line} (h : DefinitionText accepted ls text.toList) : parse text = .ok ls := by
  obtain ⟨ps, qs, r, h1, h2, h3⟩ := definition_ok (whole := text.toList) h
  have h4 : Ok dsdl text.toList (.rule .EOI) ([] ++ []) [.node .EOI [] []] [] := okRule (ok_eoi.2 ⟨rfl, rfl, rfl⟩)
  have h5 : Ok dsdl text.toList (.rule .definition) text.toList (ps ++ (qs ++ [.node .EOI [] []])) [] :=
    okSilent (okSeq0 (ok_soi.2 ⟨rfl, rfl, rfl⟩) (okSeq h1 (okSeq h2 h4)))
  have h6 := h3 [.node .EOI [] []] ([], true) rfl
  rw [parse, parsePairs_some.2 ⟨_, h5⟩]
  simp only [parseToAst]
  rw [← List.append_assoc, h6, bind_ok', if_pos rfl, List.append_nil]

/-- What the parser gives. -/
theorem parse_iff {text : String} {ls : List Line} : parse text = .ok ls ↔ DefinitionText accepted ls text.toList := ⟨parse_sound, parse_complete⟩

end Verif.Parse
