import Verif.Parse.Sound

/-!
When the grammar matches, continued: strings, types and names.
-/

namespace Verif.Parse

open Verif.Front

variable {whole : List Char}

theorem okAt {e : Peg Rule} {s s' r : List Char} {ps} (h : Ok dsdl whole e s ps r) (hs : s' = s) : Ok dsdl whole e s' ps r := hs ▸ h

/-! ### Strings -/

theorem class_except {a b : String} {x y : Char} (ha : a.toList = [x]) (hb : b.toList = [y]) : Class whole (except a b) fun c => c ≠ x ∧ c ≠ y where
  ok c s h := by
    refine okSeq0 (ok_not.2 ⟨noChoice (noChar ha ?_) (noChar hb ?_), rfl, rfl⟩) (ok_any.2 ⟨rfl, c, rfl⟩)
    · intro d u hd; cases hd; exact h.1
    · intro d u hd; cases hd; exact h.2
  no s h := by
    cases s with
    | nil =>
      refine noSeq' (ok_not.2 ⟨noChoice (noChar ha nofun) (noChar hb nofun), rfl, rfl⟩) (no_any.2 rfl)
    | cons c u =>
      have := h c u rfl
      refine noSeq (no_not.2 ⟨[], u, ?_⟩)
      by_cases hc : c = x
      · subst hc; exact okLeft (okChar ha)
      · have hy : c = y := by tauto
        subst hy
        exact okRight (noChar ha (by intro d u hd; cases hd; exact hc)) (okChar hb)

theorem between_ok {q : String} {c : Char} (hq : q.toList = [c]) (hc : c ≠ '\\') {u rest : List Char} (h : Between c u) :
    ∃ r, Ok dsdl whole (many (except q "\\")) (u ++ c :: rest) [] r ∧
      Ok dsdl whole (many (.seq (.lit "\\") (.seq (except "\r" "\n") (many (except q "\\"))))) r [] (c :: rest) := by
  have hE : Class whole (except q "\\") _ := class_except hq (y := '\\') rfl
  induction h with
  | nil =>
    refine ⟨c :: rest, okNil (hE.no _ ?_), okNil (noSeq (noChar rfl ?_))⟩
    · intro d v hd hh; cases hd; exact hh.1 rfl
    · intro d v hd; cases hd; exact hc
  | @plain d t h1 h2 _ ih =>
    obtain ⟨r, h3, h4⟩ := ih
    exact ⟨r, okCons (ps := []) (hE.ok d _ ⟨h2, h1⟩) h3, h4⟩
  | @escape d t h1 h2 _ ih =>
    obtain ⟨r, h3, h4⟩ := ih
    refine ⟨_, okNil (hE.no _ ?_), okCons (ps := []) (okSeq0 (okChar rfl) (okSeq0 ((class_except rfl rfl).ok d _ ⟨h1, h2⟩) h3)) h4⟩
    intro e v he hh; cases he; exact hh.2 rfl

theorem between_of_quoted {q : Char} (hq : q = '\'' ∨ q = '"') {t v : List Char} (h : Quoted HexPlus q t v) : Between q t := by
  have uni : ∀ {ds n t}, HexPlus ds n → Between q t → Between q (ds ++ t) := by
    intro ds n t h1 h2
    have h3 := hexPlus_chars h1
    clear h1
    induction ds with
    | nil => exact h2
    | cons c ds ih =>
      have hc := h3 c (by simp)
      refine .plain ?_ ?_ (ih fun d hd => h3 d (by simp [hd]))
      · rintro rfl
        rcases hc with h | ⟨d, h⟩
        · exact absurd h (by decide)
        · have e1 : '\\'.toNat = 92 := rfl
          have e0 : '0'.toNat = 48 := rfl
          have ea : 'a'.toNat = 97 := rfl
          have eA : 'A'.toNat = 65 := rfl
          unfold DigitChar at h
          omega
      · rintro rfl
        rcases hc with h | ⟨d, h⟩
        · rcases hq with rfl | rfl <;> exact absurd h (by decide)
        · have e1 : '\''.toNat = 39 := rfl
          have e2 : '"'.toNat = 34 := rfl
          have e0 : '0'.toNat = 48 := rfl
          have ea : 'a'.toNat = 97 := rfl
          have eA : 'A'.toNat = 65 := rfl
          unfold DigitChar at h
          rcases hq with rfl | rfl <;> omega
  induction h with
  | nil => exact .nil
  | plain h1 h2 _ ih => exact .plain h1 h2 ih
  | escape h1 _ ih =>
    have : ∀ {c d : Char}, (c, d) ∈ escapes → c ≠ '\r' ∧ c ≠ '\n' := by
      intro c d h
      simp only [escapes, List.mem_cons, Prod.mk.injEq, List.not_mem_nil, or_false] at h
      rcases h with ⟨rfl, rfl⟩ | ⟨rfl, rfl⟩ | ⟨rfl, rfl⟩ | ⟨rfl, rfl⟩ | ⟨rfl, rfl⟩ | ⟨rfl, rfl⟩ <;> decide
    exact .escape (this h1).1 (this h1).2 ih
  | unicode4 _ h2 _ _ ih => exact .escape (by decide) (by decide) (uni h2 ih)
  | unicode8 _ h2 _ _ ih => exact .escape (by decide) (by decide) (uni h2 ih)

theorem string_ok {t rest : List Char} {s : String} (h : StringText HexPlus t s) :
    ∃ c, Ok dsdl whole (.rule .literal) (t ++ rest) [.node .literal t [c]] rest ∧ parseLiteral c = .ok (.string s) := by
  obtain ⟨q, body, hq, rfl, hb⟩ := h
  have hbt := between_of_quoted hq hb
  have value : ∀ r, parseLiteral (.node .literal_string (q :: body ++ [q]) [.node r (q :: body ++ [q]) []]) = .ok (.string s) := by
    intro r
    rw [parseLiteral.eq_def]
    have hq' : isQuote q = true := by rcases hq with rfl | rfl <;> decide
    simp only [parseStringLiteral, Pair.inner, first, bind_ok', text_node, betweenQuotes_ok hq', unescape_of_quoted hb, Outcome.ofOption, String.ofList_toList]
  have pre : ∀ {x}, Ok dsdl whole (.rule .literal_string) (q :: body ++ [q] ++ rest) [x] rest →
      Ok dsdl whole (.rule .literal) (q :: body ++ [q] ++ rest) [.node .literal (q :: body ++ [q]) [x]] rest := by
    intro x hx
    have hstart : Starts [(34, 34), (39, 39)] (q :: body ++ [q] ++ rest) := by
      refine starts_cons ?_
      rcases hq with rfl | rfl
      · exact ⟨(39, 39), by simp, by decide⟩
      · exact ⟨(34, 34), by simp, by decide⟩
    exact okRule (okRight (no_starts hstart rfl (by decide +kernel)) (okRight (no_starts hstart rfl (by decide +kernel))
      (okRight (no_starts hstart rfl (by decide +kernel)) (okLeft hx))))
  have body_ok : ∀ {l : String}, l.toList = [q] → Ok dsdl whole (quoted l) (q :: body ++ [q] ++ rest) [] rest := by
    intro l hl
    obtain ⟨r, h1, h2⟩ := between_ok (whole := whole) (rest := rest) hl (by rcases hq with rfl | rfl <;> decide) hbt
    have := okSeq0 (okChar hl) (okSeq0 h1 (okSeq0 h2 (okChar (r := rest) hl)))
    simpa using this
  rcases hq with rfl | rfl
  · exact ⟨_, pre (okRule (okLeft (okRule (body_ok (l := "'") rfl)))), value _⟩
  · refine ⟨_, pre (okRule (okRight (no_starts (cls := [(34, 34)]) (starts_cons ⟨_, List.mem_singleton.2 rfl, by decide⟩) rfl (by decide +kernel))
      (okRule (body_ok (l := "\"") rfl)))), value _⟩

/-! ### Words -/

/-- Two texts differ at some place. -/
def differ (a b : List Char) : Bool := (a.zip b).any fun c => c.1 != c.2

theorem differ_no {a b rest : List Char} (h : differ a b = true) : ¬ a <+: b ++ rest := by
  rintro ⟨u, hu⟩
  induction a generalizing b with
  | nil => simp [differ] at h
  | cons c a ih =>
    cases b with
    | nil => simp [differ] at h
    | cons d b =>
      simp only [List.cons_append, List.cons.injEq] at hu
      obtain ⟨rfl, hu⟩ := hu
      exact ih (by simpa [differ] using h) hu

theorem noLit {l : String} {b rest : List Char} (h : differ l.toList b = true) : No dsdl whole (.lit l) (b ++ rest) := no_lit.2 (differ_no h)

/-- A word at the start is part of the name there. -/
theorem prefix_name {w n rest : List Char} (hw : ∀ c ∈ w, NameChar c) (hr : NoName rest) (h : w <+: n ++ rest) : w <+: n := by
  obtain ⟨u, hu⟩ := h
  induction w generalizing n with
  | nil => exact List.nil_prefix
  | cons c w ih =>
    cases n with
    | nil =>
      rw [List.nil_append] at hu
      exact absurd (hw c (by simp)) (hr c (w ++ u) hu.symm)
    | cons d n =>
      simp only [List.cons_append, List.cons.injEq] at hu
      obtain ⟨rfl, hu⟩ := hu
      obtain ⟨v, rfl⟩ := ih (fun c hc => hw c (by simp [hc])) hu
      exact ⟨v, rfl⟩

instance {c : Char} : Decidable (NameStart c) := by unfold NameStart; infer_instance
instance {c : Char} : Decidable (NameChar c) := by unfold NameChar; infer_instance

/-- The ranges are all in the characters of names. -/
def inNames (a : List (Nat × Nat)) : Bool := a.all fun r => [(48, 57), (65, 90), (95, 95), (97, 122)].any fun q => decide (q.1 ≤ r.1 ∧ r.2 ≤ q.2)

theorem nameChar_of_within {a : List (Nat × Nat)} (h : inNames a = true) {c : Char} (hc : within a c.toNat) : NameChar c := by
  obtain ⟨r, hr, h1, h2⟩ := hc
  have := List.all_eq_true.1 h r hr
  have e1 : 'a'.toNat = 97 := rfl
  have e2 : 'z'.toNat = 122 := rfl
  have e3 : 'A'.toNat = 65 := rfl
  have e4 : 'Z'.toNat = 90 := rfl
  have e5 : '_'.toNat = 95 := rfl
  have e6 : '0'.toNat = 48 := rfl
  have e7 : '9'.toNat = 57 := rfl
  simp only [List.any_cons, List.any_nil, Bool.or_false, Bool.or_eq_true, decide_eq_true_eq] at this
  unfold NameChar NameStart
  simp only [char_le, char_eq]
  omega

/-- A rule that begins with a character of a name does not match before another one. -/
theorem no_name_rule {r : Rule} {s : List Char} (hn : r.nullable = false) (h : inNames (firsts 80 (.rule r)) = true) (hs : NoName s) : No dsdl whole (.rule r) s :=
  no_first hn fun c u hc hw => hs c u hc (nameChar_of_within h hw)

/-! ### Types -/

theorem separated_of {t : List Char} (h : '_' ∉ t) : Separated t := by
  induction t with
  | nil => exact .nil
  | cons c t ih =>
    simp only [List.mem_cons, not_or] at h
    exact .digit (Ne.symm h.1) (ih h.2)

theorem Decimal.group {t : List Char} {n : Nat} (h : Decimal t n) : Group t n := by
  obtain ⟨h1, h2, h3, -⟩ := h
  exact ⟨⟨h1, separated_of h2, h3⟩, fun hh => h2 (List.mem_of_mem_head? hh)⟩

theorem Decimal.u8 {t : List Char} {n : Nat} {r : Rule} {qs} (h : Decimal t n) (hn : n ≤ 255) : parseU8 (.node r t qs) = .ok n := by
  have : fromStrRadix 10 255 t = some n := by
    rw [fromStrRadix_some]
    · exact ⟨h.1, h.2.1, h.2.2.1, hn⟩
    · intro hh
      rcases group_chars h.1 '+' (List.mem_of_mem_head? hh) with h | h
      · exact absurd h (by decide)
      · exact absurd h (by decide)
  unfold parseU8
  rw [text_node, this]
  rfl

theorem suffix_ok {t rest : List Char} {n : Nat} (h : Decimal t n) (hn : 1 ≤ n) (hr : NoName rest) :
    Ok dsdl whole (.rule .type_bit_length_suffix) (t ++ rest) [.node .type_bit_length_suffix t []] rest := by
  obtain ⟨c, u, rfl, hc, -⟩ := h.group.cons
  have hall := group_chars h.1
  have hno := h.2.1
  have hz : c ≠ '0' := by
    rintro rfl
    have := h.2.2.2 rfl
    omega
  refine okRule (okSeq0 (class_range.ok c _ ⟨?_, hc.2⟩) (class_range.star ?_ fun d v hd => (hr.digit d v hd).1))
  · have e0 : '0'.toNat = 48 := rfl
    have e1 : '1'.toNat = 49 := rfl
    have := hc.1
    rw [char_le] at this ⊢
    rw [Ne, char_eq] at hz
    omega
  · intro d hd
    refine (hall d (by simp [hd])).resolve_left ?_
    rintro rfl
    exact hno (by simp [hd])

/-- What comes after the first name of a versioned type. -/
abbrev versionTail : Peg Rule := .seq (many (.seq (.lit ".") (.rule .identifier))) (.seq (.lit ".") (.rule .type_version_specifier))

/-- No version goes on. -/
def NoVersion (whole rest : List Char) : Prop := No dsdl whole versionTail rest

theorem noVersion_of {rest : List Char} (h : rest.head? ≠ some '.') : NoVersion whole rest := by
  have hd : No dsdl whole (.lit ".") rest := noChar rfl (by rintro d u hd rfl; rw [hd] at h; exact h rfl)
  exact noSeq' (okNil (noSeq hd)) (noSeq hd)

theorem versioned_no {n rest : List Char} (hn : Name n) (hr : NoName rest) (hv : NoVersion whole rest) : No dsdl whole (.rule .type_versioned) (n ++ rest) :=
  noRule (noSeq' (name_ok hn hr) hv)

/-- The three words that have a number of bits. -/
inductive Sized : Rule → String → Prop
  | uint : Sized .type_primitive_name_unsigned_integer "uint"
  | int : Sized .type_primitive_name_signed_integer "int"
  | float : Sized .type_primitive_name_floating_point "float"

theorem sized_ok {k : Rule} {l : String} (hk : Sized k l) {t rest : List Char} {n : Nat} (h : Decimal t n) (hn : 1 ≤ n) (hr : NoName rest) :
    Ok dsdl whole (.rule .type_primitive_name) (l.toList ++ t ++ rest)
      [.node .type_primitive_name (l.toList ++ t) [.node k (l.toList ++ t) [.node .type_bit_length_suffix t []]]] rest := by
  have hs := suffix_ok (whole := whole) h hn hr
  refine okRule ?_
  cases hk with
  | uint =>
    refine okLeft (okRule ?_)
    rw [List.append_assoc]
    exact okSeq0 okLit hs
  | int =>
    refine okRight (noRule (noSeq ?_)) (okLeft (okRule ?_))
    · rw [List.append_assoc]; exact noLit (by decide)
    · rw [List.append_assoc]
      exact okSeq0 okLit hs
  | float =>
    refine okRight (noRule (noSeq ?_)) (okRight (noRule (noSeq ?_)) (okRule ?_))
    · rw [List.append_assoc]; exact noLit (by decide)
    · rw [List.append_assoc]; exact noLit (by decide)
    · rw [List.append_assoc]
      exact okSeq0 okLit hs

theorem sized_value {k : Rule} {l : String} (hk : Sized k l) {t : List Char} {n : Nat} (h : Decimal t n) (hn : n ≤ 255) (m : CastMode) (u v : List Char) :
    parsePrimitiveTypeName (.node .type_primitive_name u [.node k v [.node .type_bit_length_suffix t []]]) m = primitiveOf k n m := by
  cases hk <;> simp only [parsePrimitiveTypeName, Pair.inner, first, bind_ok', Pair.rule, h.u8 hn]

theorem mode_ok {k : Rule} {l : String} (hk : Sized k l) {m : CastMode} {x t rest : List Char} {n : Nat} (hx : ModeText m x) (h : Decimal t n) (hn : 1 ≤ n) (hn' : n ≤ 255)
    (hr : NoName rest) : ∃ ps, Ok dsdl whole (.rule .type_primitive) (x ++ l.toList ++ t ++ rest) [.node .type_primitive (x ++ l.toList ++ t) ps] rest ∧
      parsePrimitiveType (.node .type_primitive (x ++ l.toList ++ t) ps) = primitiveOf k n m := by
  have hs := sized_ok (whole := whole) hk h hn hr
  have hself : trim (l.toList ++ t ++ rest) = l.toList ++ t ++ rest := by
    cases hk <;> exact trim_cons (by decide)
  cases hx with
  | default =>
    refine ⟨[.node .type_primitive_saturated ([] ++ l.toList ++ t) [.node .type_primitive_name (l.toList ++ t) [.node k (l.toList ++ t) [.node .type_bit_length_suffix t []]]]], okRule (okRight (noRule (noSeq ?_)) (okLeft (okRule ?_))), ?_⟩
    rotate_left
    · refine okSeq0 (okNone (noSeq ?_)) hs
      rw [List.nil_append, List.append_assoc]
      cases hk <;> exact noLit (by decide)
    · simp only [parsePrimitiveType, Pair.inner, first, bind_ok', Pair.rule, last, List.getLast?_singleton]
      exact sized_value hk h hn' _ _ _
    · rw [List.nil_append, List.append_assoc]
      cases hk <;> exact noLit (by decide)
  | @saturated x hx =>
    have hw := ws_ok (whole := whole) (s := l.toList ++ t ++ rest) hx
    rw [hself] at hw
    refine ⟨[.node .type_primitive_saturated ("saturated".toList ++ x ++ l.toList ++ t) [.node .type_primitive_name (l.toList ++ t) [.node k (l.toList ++ t) [.node .type_bit_length_suffix t []]]]], okRule (okRight (noRule (noSeq ?_)) (okLeft (okRule ?_))), ?_⟩
    rotate_left
    · exact okAt (okSeq0 (okSome (okSeq0 (okLit (l := "saturated")) hw)) hs) (by simp only [List.append_assoc])
    · simp only [parsePrimitiveType, Pair.inner, first, bind_ok', Pair.rule, last, List.getLast?_singleton]
      exact sized_value hk h hn' _ _ _
    · simp only [List.append_assoc]
      exact noLit (by decide)
  | @truncated x hx =>
    have hw := ws_ok (whole := whole) (s := l.toList ++ t ++ rest) hx
    rw [hself] at hw
    refine ⟨[.node .type_primitive_truncated ("truncated".toList ++ x ++ l.toList ++ t) [.node .type_primitive_name (l.toList ++ t) [.node k (l.toList ++ t) [.node .type_bit_length_suffix t []]]]], okRule (okLeft (okRule ?_)), ?_⟩
    rotate_left
    · simp only [parsePrimitiveType, Pair.inner, first, bind_ok', Pair.rule, last, List.getLast?_singleton]
      exact sized_value hk h hn' _ _ _
    · exact okAt (okSeq0 (okLit (l := "truncated")) (okSeq0 hw hs)) (by simp only [List.append_assoc])

theorem prim_ok {p : Prim} {t rest : List Char} (h : PrimText p t) (hr : NoName rest) :
    ∃ ps, Ok dsdl whole (.rule .type_primitive) (t ++ rest) [.node .type_primitive t ps] rest ∧ parsePrimitiveType (.node .type_primitive t ps) = .ok p := by
  cases h with
  | boolean =>
    refine ⟨_, okRule (okRight (noRule (noSeq (noLit (by decide)))) (okRight (noRule (noSeq' (okNone (noSeq (noLit (by decide))))
      (no_starts (cls := [(98, 98)]) (starts_cons ⟨_, List.mem_singleton.2 rfl, by decide⟩) rfl (by decide +kernel)))) (okLeft (okRule (okRule okLit))))), ?_⟩
    simp only [parsePrimitiveType, Pair.inner, first, bind_ok', Pair.rule]
  | byte =>
    refine ⟨_, okRule (okRight (noRule (noSeq (noLit (by decide)))) (okRight (noRule (noSeq' (okNone (noSeq (noLit (by decide))))
      (no_starts (cls := [(98, 98)]) (starts_cons ⟨_, List.mem_singleton.2 rfl, by decide⟩) rfl (by decide +kernel))))
      (okRight (noRule (noRule (noLit (by decide)))) (okRight (noRule (noLit (by decide))) (okRule okLit))))), ?_⟩
    simp only [parsePrimitiveType, Pair.inner, first, bind_ok', Pair.rule]
  | utf8 =>
    refine ⟨_, okRule (okRight (noRule (noSeq (noLit (by decide)))) (okRight (noRule (noSeq' (okNone (noSeq (noLit (by decide))))
      (noRule (noChoice (noRule (noSeq (noLit (by decide)))) (noChoice (noRule (noSeq (noLit (by decide)))) (noRule (noSeq (noLit (by decide)))))))))
      (okRight (noRule (noRule (noLit (by decide)))) (okLeft (okRule okLit))))), ?_⟩
    simp only [parsePrimitiveType, Pair.inner, first, bind_ok', Pair.rule]
  | uint hx hd h1 h2 =>
    obtain ⟨ps, h3, h4⟩ := mode_ok (whole := whole) .uint hx hd h1 (by omega) hr
    exact ⟨ps, h3, by rw [h4]; simp only [primitiveOf, if_pos (And.intro h1 h2)]⟩
  | int hx hd h1 h2 =>
    obtain ⟨ps, h3, h4⟩ := mode_ok (whole := whole) .int hx hd h1 (by omega) hr
    exact ⟨ps, h3, by rw [h4]; simp only [primitiveOf, if_pos (And.intro h1 h2)]⟩
  | float16 hx hd => exact mode_ok .float hx hd (by decide) (by decide) hr
  | float32 hx hd => exact mode_ok .float hx hd (by decide) (by decide) hr
  | float64 hx hd => exact mode_ok .float hx hd (by decide) (by decide) hr

theorem void_ok {t rest : List Char} {n : Nat} (h : Decimal t n) (h1 : 1 ≤ n) (h2 : n ≤ 64) (hr : NoName rest) :
    ∃ ps, Ok dsdl whole (.rule .type_void) ("void".toList ++ t ++ rest) [.node .type_void ("void".toList ++ t) ps] rest ∧
      parseVoid (.node .type_void ("void".toList ++ t) ps) = .ok n := by
  refine ⟨[.node .type_bit_length_suffix t []], okRule ?_, ?_⟩
  · rw [List.append_assoc]
    exact okSeq0 okLit (suffix_ok h h1 hr)
  · simp only [parseVoid, Pair.inner, first, bind_ok', h.u8 (show n ≤ 255 by omega), if_pos (And.intro h1 h2)]

theorem path_ok {ns : List String} {p : List Char} (h : Path ns p) : ∀ {rest : List Char}, NoName rest → ∃ c cs r,
    Ok dsdl whole (.rule .identifier) (p ++ rest) [c] r ∧
      (∀ qs rest', Ok dsdl whole (many (.seq (.lit ".") (.rule .identifier))) rest qs rest' → Ok dsdl whole (many (.seq (.lit ".") (.rule .identifier))) r (cs ++ qs) rest') ∧
      ∀ tail, parseVersionedParts (c :: cs ++ tail) [] = parseVersionedParts tail ns := by
  induction h with
  | @one t hn =>
    intro rest hr
    refine ⟨_, [], rest, name_ok hn hr, fun qs rest' h => h, fun tail => ?_⟩
    simp only [List.cons_append, List.nil_append, parseVersionedParts, Pair.rule, text_node]
  | @more ns p t _ hn ih =>
    intro rest hr
    have hdot : NoName ('.' :: t ++ rest) := by intro c u hc; cases hc; decide
    obtain ⟨c, cs, r, h1, h2, h3⟩ := ih hdot
    refine ⟨c, cs ++ [.node .identifier t []], r, by simpa using h1, fun qs rest' h => ?_, fun tail => ?_⟩
    · have := h2 (.node .identifier t [] :: qs) rest' (okCons (ps := [_]) (okSeq0 (okChar rfl) (name_ok hn hr)) h)
      simpa using this
    · rw [List.append_cons, List.append_assoc, ← List.cons_append, List.cons_append] at *
      rw [← List.cons_append]
      have := h3 (.node .identifier t [] :: tail)
      simp only [List.cons_append, List.append_assoc, List.nil_append] at this ⊢
      rw [this, parseVersionedParts]
      rfl

theorem Path.name {ns : List String} {p : List Char} (h : Path ns p) : ∃ n u, Name n ∧ p = n ++ u ∧ (u = [] ∨ u.head? = some '.') := by
  induction h with
  | @one t hn => exact ⟨t, [], hn, by simp, .inl rfl⟩
  | @more ns p t _ _ ih =>
    obtain ⟨n, u, h1, rfl, h3⟩ := ih
    refine ⟨n, u ++ '.' :: t, h1, by simp, .inr ?_⟩
    rcases h3 with rfl | h3
    · rfl
    · cases u with
      | nil => simp at h3
      | cons c u => exact h3

theorem scalar_ok {s : ScalarTy} {t rest : List Char} (h : ScalarText s t) (hr : NoName rest) (hv : NoVersion whole rest) :
    ∃ ps, Ok dsdl whole (.rule .type_scalar) (t ++ rest) [.node .type_scalar t ps] rest ∧ parseScalarType (.node .type_scalar t ps) = .ok s := by
  have sized : ∀ {l : String} {d : List Char} {n}, (∃ c cs, l.toList = c :: cs ∧ NameStart c ∧ ∀ e ∈ cs, NameChar e) → Decimal d n → Name (l.toList ++ d) := by
    rintro l d n ⟨c, cs, h1, h2, h3⟩ hd
    refine ⟨c, cs ++ d, by rw [h1]; rfl, h2, ?_⟩
    intro e he
    rcases List.mem_append.1 he with he | he
    · exact h3 e he
    · rcases group_chars hd.1 e he with h | h
      · exact .inl (.inr (.inr h))
      · exact .inr h
  cases h with
  | @prim p t h =>
    obtain ⟨ps, h1, h2⟩ := prim_ok (whole := whole) h hr
    refine ⟨_, okRule (okRight ?_ (okLeft h1)), ?_⟩
    · have mode : ∀ {m x l d n}, ModeText m x → (∃ c cs, l.toList = c :: cs ∧ NameStart c ∧ ∀ e ∈ cs, NameChar e) → Decimal d n →
          No dsdl whole (.rule .type_versioned) (x ++ String.toList l ++ d ++ rest) := by
        intro m x l d n hx hl hd
        have blank : ∀ {w x : List Char}, Name w → Blanks x → No dsdl whole (.rule .type_versioned) (w ++ x ++ l.toList ++ d ++ rest) := by
          intro w x hw hx
          obtain ⟨hb, hne⟩ := hx
          cases x with
          | nil => exact absurd rfl hne
          | cons c x =>
            have hc := hb c (by simp)
            have := versioned_no (whole := whole) (rest := (c :: x) ++ l.toList ++ d ++ rest) hw ?_ (noVersion_of ?_)
            · simpa using this
            · intro e u he; cases he; intro hh; have := start_not_blank hh; tauto
            · rcases hc with rfl | rfl <;> simp
        cases hx with
        | default => rw [List.nil_append]; exact versioned_no (sized hl hd) hr hv
        | saturated hx => exact blank ⟨'s', "aturated".toList, rfl, by decide, by decide⟩ hx
        | truncated hx => exact blank ⟨'t', "runcated".toList, rfl, by decide, by decide⟩ hx
      cases h with
      | boolean => exact versioned_no ⟨'b', "ool".toList, rfl, by decide, by decide⟩ hr hv
      | byte => exact versioned_no ⟨'b', "yte".toList, rfl, by decide, by decide⟩ hr hv
      | utf8 => exact versioned_no ⟨'u', "tf8".toList, rfl, by decide, by decide⟩ hr hv
      | uint hx hd _ _ => exact mode hx ⟨'u', "int".toList, rfl, by decide, by decide⟩ hd
      | int hx hd _ _ => exact mode hx ⟨'i', "nt".toList, rfl, by decide, by decide⟩ hd
      | float16 hx hd => exact mode hx ⟨'f', "loat".toList, rfl, by decide, by decide⟩ hd
      | float32 hx hd => exact mode hx ⟨'f', "loat".toList, rfl, by decide, by decide⟩ hd
      | float64 hx hd => exact mode hx ⟨'f', "loat".toList, rfl, by decide, by decide⟩ hd
    · simp only [parseScalarType, Pair.inner, first, bind_ok', Pair.rule, h2]
  | @void t n hd hn hn' =>
    obtain ⟨ps, h1, h2⟩ := void_ok (whole := whole) hd hn hn' hr
    refine ⟨_, okRule (okRight (versioned_no (sized ⟨'v', "oid".toList, rfl, by decide, by decide⟩ hd) hr hv) (okRight ?_ h1)), ?_⟩
    · exact no_starts (cls := [(118, 118)]) (starts_cons ⟨_, List.mem_singleton.2 rfl, by decide⟩) rfl (by decide +kernel)
    · simp only [parseScalarType, Pair.inner, first, bind_ok', Pair.rule, h2]
  | @versioned ns n p a b major minor hp ha hb hA hB =>
    have hdot : ∀ s : List Char, NoName ('.' :: s) := by intro s c u hc; cases hc; decide
    obtain ⟨c, cs, r, h1, h2, h3⟩ := path_ok (whole := whole) hp (hdot (a ++ '.' :: b ++ rest))
    have hnd : NoDigit ('.' :: (b ++ rest)) := (hdot _).digit
    have hmany : Ok dsdl whole (many (.seq (.lit ".") (.rule .identifier))) ('.' :: (a ++ '.' :: b ++ rest)) [] ('.' :: (a ++ '.' :: b ++ rest)) := by
      refine okNil (noSeq' (okChar rfl) (name_no ?_))
      obtain ⟨e, u, rfl, he, -⟩ := ha.group.cons
      intro d v hd
      cases hd
      intro hh
      have e1 : 'a'.toNat = 97 := rfl
      have e2 : 'z'.toNat = 122 := rfl
      have e3 : 'A'.toNat = 65 := rfl
      have e4 : 'Z'.toNat = 90 := rfl
      have e5 : '_'.toNat = 95 := rfl
      have e6 : '0'.toNat = 48 := rfl
      have e7 : '9'.toNat = 57 := rfl
      unfold NameStart at hh
      simp only [char_le, char_eq] at hh he
      omega
    have h4 := h2 [] _ hmany
    rw [List.append_nil] at h4
    have hver : Ok dsdl whole (.rule .type_version_specifier) (a ++ '.' :: b ++ rest)
        [.node .type_version_specifier (a ++ '.' :: b) [.node .literal_integer_decimal a [], .node .literal_integer_decimal b []]] rest := by
      refine okRule ?_
      rw [List.append_assoc]
      exact okSeq1 (decimal_ok (whole := whole) ha.group ha.2.2.2 hnd) (okSeq0 (okChar (l := ".") rfl) (decimal_ok hb.group hb.2.2.2 hr.digit))
    have h5 : Ok dsdl whole (.rule .type_versioned) (p ++ '.' :: a ++ '.' :: b ++ rest) [.node .type_versioned (p ++ '.' :: a ++ '.' :: b) (c :: (cs ++
        [.node .type_version_specifier (a ++ '.' :: b) [.node .literal_integer_decimal a [], .node .literal_integer_decimal b []]]))] rest := by
      refine okRule ?_
      exact okAt (okSeq1 h1 (okSeq h4 (okSeq0 (okChar (l := ".") rfl) hver))) (by simp)
    refine ⟨_, okRule (okLeft h5), ?_⟩
    have h6 := h3 [.node .type_version_specifier (a ++ '.' :: b) [.node .literal_integer_decimal a [], .node .literal_integer_decimal b []]]
    rw [List.cons_append] at h6
    simp only [parseScalarType, Pair.inner, first, bind_ok', Pair.rule, parseVersionedType, h6]
    simp only [parseVersionedParts, Pair.rule, Pair.inner, ha.u8 hA, hb.u8 hB, bind_ok', List.getLast?_append, List.getLast?_singleton, Option.some_or, List.dropLast_concat]

/-! ### Names that are no types -/

/-- Names that begin like a type. -/
def TypeLike (n : List Char) : Prop :=
  (∃ w ∈ ["bool", "utf8", "byte"], w.toList <+: n) ∨ ∃ w ∈ ["uint", "int", "float", "void"], ∃ d, '1' ≤ d ∧ d ≤ '9' ∧ w.toList ++ [d] <+: n

theorem scalar_no {n rest : List Char} (hn : Name n) (ht : ¬ TypeLike n) (hr : NoName rest) (hv : NoVersion whole rest) (hf : NoName (trim rest)) :
    No dsdl whole (.rule .type_scalar) (n ++ rest) := by
  have chars : ∀ w ∈ ["bool", "utf8", "byte", "uint", "int", "float", "void", "truncated", "saturated"], ∀ c ∈ w.toList, NameChar c := by decide
  have word : ∀ {w : String}, w ∈ ["bool", "utf8", "byte"] → No dsdl whole (.lit w) (n ++ rest) := by
    intro w hw
    refine no_lit.2 fun h => ht (.inl ⟨w, hw, prefix_name (chars w ?_) hr h⟩)
    simp only [List.mem_cons, List.not_mem_nil, or_false] at hw ⊢
    tauto
  have sized : ∀ {w : String}, w ∈ ["uint", "int", "float", "void"] → No dsdl whole (.seq (.lit w) (.rule .type_bit_length_suffix)) (n ++ rest) := by
    intro w hw
    by_cases h : w.toList <+: n ++ rest
    · obtain ⟨m, rfl⟩ := prefix_name (chars w (by simp only [List.mem_cons, List.not_mem_nil, or_false] at hw ⊢; tauto)) hr h
      rw [List.append_assoc]
      refine noSeq' okLit (noRule (noSeq (class_range.no _ ?_)))
      intro d v hd hd'
      cases m with
      | nil => exact hr d v hd (.inr ⟨Char.le_trans (by decide) hd'.1, hd'.2⟩)
      | cons e m =>
        cases hd
        exact ht (.inr ⟨w, hw, d, hd'.1, hd'.2, m, by simp⟩)
    · exact noSeq (no_lit.2 h)
  have name : No dsdl whole (.rule .type_primitive_name) (n ++ rest) :=
    noRule (noChoice (noRule (sized (by decide))) (noChoice (noRule (sized (by decide))) (noRule (sized (by decide)))))
  have mode : ∀ {w : String}, w ∈ ["truncated", "saturated"] → No dsdl whole (.seq (.lit w) (.rule .ws)) (n ++ rest) ∨
      Ok dsdl whole (.seq (.lit w) (.rule .ws)) (n ++ rest) [] (trim rest) := by
    intro w hw
    by_cases h : w.toList <+: n ++ rest
    · obtain ⟨m, rfl⟩ := prefix_name (chars w (by simp only [List.mem_cons, List.not_mem_nil, or_false] at hw ⊢; tauto)) hr h
      rw [List.append_assoc]
      cases m with
      | cons c m =>
        refine .inl (noSeq' okLit (ws_no ?_))
        intro d u hd
        cases hd
        obtain ⟨e, cs, h1, -, h3⟩ := hn
        refine start_not_blank (h3 c ?_)
        have : ∃ e' cs', w.toList = e' :: cs' := by
          simp only [List.mem_cons, List.not_mem_nil, or_false] at hw
          rcases hw with rfl | rfl
          · exact ⟨_, _, rfl⟩
          · exact ⟨_, _, rfl⟩
        obtain ⟨e', cs', hw'⟩ := this
        rw [hw'] at h1
        cases h1
        simp
      | nil =>
        rw [List.nil_append]
        obtain ⟨x, hx, hs⟩ := trim_split rest
        by_cases hne : x = []
        · subst hne
          refine .inl (noSeq' okLit (ws_no ?_))
          intro c u hc
          have := trim_head c u (hs.symm.trans hc)
          tauto
        · have := ws_ok (whole := whole) (s := trim rest) ⟨hx, hne⟩
          rw [← hs, trim_self (s := trim rest) (fun c u hc => by have := trim_head c u hc; tauto)] at this
          exact .inr (okSeq0 okLit this)
    · exact .inl (noSeq (no_lit.2 h))
  have far : No dsdl whole (.rule .type_primitive_name) (trim rest) := no_name_rule rfl (by decide +kernel) hf
  refine noRule (noChoice (versioned_no hn hr hv) (noChoice (noRule (noChoice (noRule ?_) (noChoice (noRule ?_)
    (noChoice (noRule (noRule (word (by decide)))) (noChoice (noRule (word (by decide))) (noRule (word (by decide)))))))) (noRule (sized (by decide)))))
  · rcases mode (w := "truncated") (by decide) with h | h
    · rcases no_seq.1 h with h | ⟨ps, r, h1, h2⟩
      · exact noSeq h
      · exact noSeq' h1 (noSeq h2)
    · obtain ⟨ps, r, qs, h1, h2, -⟩ := ok_seq.1 h
      exact noSeq' h1 (noSeq' h2 far)
  · rcases mode (w := "saturated") (by decide) with h | h
    · exact noSeq' (okNone h) name
    · exact noSeq' (okSome h) far

end Verif.Parse
