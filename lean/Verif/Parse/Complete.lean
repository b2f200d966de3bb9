import Verif.Parse.ForwardOps

/-!
Every expression that is written as `accepted` says is matched as a whole, and it is read as what it stands for.
-/

namespace Verif.Parse

open Verif.Front

variable {whole : List Char}

/-! ### What is shown -/

/-- An expression of this precedence is matched as a whole and read. -/
def Reads (whole : List Char) (k : Nat) (t : List Char) (e : Expr) : Prop :=
  ∀ rest, After whole k t rest → ∃ p, Ok dsdl whole (.rule (ruleAt k)) (t ++ rest) [p] rest ∧ parseExpression p = .ok e

/-- The loops over operators. -/
def fold (k : Nat) (qs : List (Pair Rule)) (e : Expr) : Outcome Expr := if k = 8 then parseAttributes qs e else parseOperands (ruleAt k) qs e

/-- The precedences with operators that group from the left. -/
def chains : List Nat := [0, 2, 3, 4, 5, 8]

/-- The same for an expression after which further operators of the same precedence may come. -/
def Open (whole : List Char) (k : Nat) (t : List Char) (e : Expr) : Prop :=
  ∀ rest, After whole (k + 1) t rest → ∃ p0 ps,
    (∀ qs rest', Ok dsdl whole (.star (item k)) rest qs rest' → Ok dsdl whole (ruleAt k).body (t ++ rest) (p0 :: (ps ++ qs)) rest') ∧
      ∀ qs, ((parseExpression p0).bind fun e0 => fold k (ps ++ qs) e0) = fold k qs e

/-- A comma and an expression. -/
abbrev element : Peg Rule := .seq ows (.seq (.lit ",") (.seq ows (.rule .expression)))

/-- The same for expressions with commas in between. -/
def ListOpen (whole : List Char) (t : List Char) (es : List Expr) : Prop :=
  ∀ rest, After whole 0 t rest → ∃ p0 ps,
    (∀ qs rest', Ok dsdl whole (.star element) rest qs rest' → Ok dsdl whole (.seq (.rule .expression) (.star element)) (t ++ rest) (p0 :: (ps ++ qs)) rest') ∧
      ∀ qs es', parseExpressions qs = .ok es' → parseExpressions (p0 :: (ps ++ qs)) = .ok (es ++ es')

/-- What is shown for every item. -/
def Complete (whole : List Char) : Item → List Char → Prop
  | .expr k e, t => if k ∈ chains then Open whole k t e else Reads whole k t e
  | .list es, t => ListOpen whole t es

theorem chains_cases {k : Nat} (h : k ∈ chains) : k = 0 ∨ k = 2 ∨ k = 3 ∨ k = 4 ∨ k = 5 ∨ k = 8 := by
  simpa only [chains, List.mem_cons, List.not_mem_nil, or_false] using h

theorem reads_of_open {k : Nat} {t : List Char} {e : Expr} (hk : k ∈ chains) (h : Open whole k t e) : Reads whole k t e := by
  intro rest hr
  obtain ⟨p0, ps, h1, h2⟩ := h rest hr.weaken
  have hlv : k ∈ levels := by rcases chains_cases hk with rfl | rfl | rfl | rfl | rfl | rfl <;> decide
  have h3 := h1 [] rest (okNil (hr.items k hlv (le_refl k)))
  have h4 := h2 []
  rw [List.append_nil] at h3 h4
  have hnode : ∀ u, parseExpression (.node (ruleAt k) u (p0 :: ps)) = (parseExpression p0).bind fun e0 => fold k ps e0 := by
    intro u
    rcases chains_cases hk with rfl | rfl | rfl | rfl | rfl | rfl <;> rw [parseExpression.eq_def] <;> rfl
  refine ⟨_, okRule h3 (by rcases chains_cases hk with rfl | rfl | rfl | rfl | rfl | rfl <;> rfl), ?_⟩
  rw [hnode, h4]
  unfold fold
  split
  · rfl
  · rw [parseOperands]

theorem Complete.reads {k : Nat} {t : List Char} {e : Expr} (h : Complete whole (.expr k e) t) : Reads whole k t e := by
  replace h : if k ∈ chains then Open whole k t e else Reads whole k t e := h
  split at h
  · next hk => exact reads_of_open hk h
  · exact h

theorem Complete.open {k : Nat} {t : List Char} {e : Expr} (h : Complete whole (.expr k e) t) (hk : k ∈ chains) : Open whole k t e := by
  replace h : if k ∈ chains then Open whole k t e else Reads whole k t e := h
  rwa [if_pos hk] at h

theorem Complete.of_open {k : Nat} {t : List Char} {e : Expr} (h : Open whole k t e) (hk : k ∈ chains) : Complete whole (.expr k e) t := by
  show if k ∈ chains then Open whole k t e else Reads whole k t e
  rwa [if_pos hk]

theorem Complete.of_reads {k : Nat} {t : List Char} {e : Expr} (h : Reads whole k t e) (hk : k ∉ chains) : Complete whole (.expr k e) t := by
  show if k ∈ chains then Open whole k t e else Reads whole k t e
  rwa [if_neg hk]

theorem open_of_reads {k : Nat} {t : List Char} {e : Expr} (hk : k ∈ chains) (h : Reads whole (k + 1) t e) : Open whole k t e := by
  intro rest hr
  obtain ⟨p, h1, h2⟩ := h rest hr
  refine ⟨p, [], ?_, ?_⟩
  · intro qs rest' h3
    rcases chains_cases hk with rfl | rfl | rfl | rfl | rfl | rfl <;> exact okSeq1 h1 h3
  · intro qs
    rw [h2]
    rfl

theorem complete_tighter {k : Nat} {t : List Char} {e : Expr} (hk : k < 9) (h : Complete whole (.expr (k + 1) e) t) : Complete whole (.expr k e) t := by
  by_cases hc : k ∈ chains
  · exact .of_open (open_of_reads hc h.reads) hc
  · refine .of_reads ?_ hc
    intro rest hr
    obtain ⟨p, h1, h2⟩ := h.reads rest hr.weaken
    have hk' : k = 1 ∨ k = 6 ∨ k = 7 := by
      simp only [chains, List.mem_cons, List.not_mem_nil, or_false] at hc
      omega
    obtain ⟨c, u, hcu, hw⟩ := starts_of_ok h1 (by rcases hk' with rfl | rfl | rfl <;> rfl)
    rcases hk' with rfl | rfl | rfl
    · refine ⟨p, okSilent (okRight (no_starts (cls := firsts 80 (.rule .ex_comparison)) ?_ rfl (by decide +kernel)) h1), h2⟩
      rw [hcu]
      exact starts_cons hw
    · refine ⟨p, okSilent (okRight (no_starts (cls := firsts 80 (.rule .ex_exponential)) ?_ rfl (by decide +kernel))
        (okRight (no_starts (cls := firsts 80 (.rule .ex_exponential)) ?_ rfl (by decide +kernel)) h1)), h2⟩
      · rw [hcu]; exact starts_cons hw
      · rw [hcu]; exact starts_cons hw
    · refine ⟨_, okRule (okSeq1 h1 (okNone (hr.items 7 (by decide) (le_refl _)))), ?_⟩
      rw [parseExpression.eq_def]
      simp only [ruleAt, h2, bind_ok', parseOperands]

/-! ### Operators -/

theorem not_blank_of {t u : List Char} (h : ∃ c v, t = c :: v ∧ within exprStart c.toNat) : ∀ c v, t ++ u = c :: v → c ≠ ' ' ∧ c ≠ '\t' := by
  obtain ⟨d, w, rfl, hd⟩ := h
  intro c v hc
  cases hc
  exact ⟨(exprStart_props hd).1, (exprStart_props hd).2.1⟩

theorem complete_binary {s : String} {op : BinOp} {k : Nat} {a b : Expr} {t x y u : List Char} (hop : (s, op, k) ∈ operators) (ha : Complete whole (.expr k a) t) (hx : Blank x)
    (hy : Blank y) (hb : Complete whole (.expr (k + 1) b) u) : Complete whole (.expr k (.binary op a b)) (t ++ x ++ s.toList ++ y ++ u) := by
  have hk : k ∈ chains ∧ k ≠ 8 ∧ k ≤ 5 := by
    simp only [operators, List.mem_cons, List.not_mem_nil, or_false, Prod.mk.injEq] at hop
    rcases hop with ⟨rfl, rfl, rfl⟩ | ⟨rfl, rfl, rfl⟩ | ⟨rfl, rfl, rfl⟩ | ⟨rfl, rfl, rfl⟩ | ⟨rfl, rfl, rfl⟩ | ⟨rfl, rfl, rfl⟩ | ⟨rfl, rfl, rfl⟩ | ⟨rfl, rfl, rfl⟩ |
      ⟨rfl, rfl, rfl⟩ | ⟨rfl, rfl, rfl⟩ | ⟨rfl, rfl, rfl⟩ | ⟨rfl, rfl, rfl⟩ | ⟨rfl, rfl, rfl⟩ | ⟨rfl, rfl, rfl⟩ | ⟨rfl, rfl, rfl⟩ | ⟨rfl, rfl, rfl⟩ <;> decide
  refine .of_open ?_ hk.1
  intro rest hr
  obtain ⟨p, h1, h2⟩ := hb.reads rest (hr.text (by omega))
  have hu := expr_starts (k := k + 1) (by omega) h1
  have hv : Operand (y ++ (u ++ rest)) := operand_of hy hu
  obtain ⟨q, h3, h4⟩ := op_ok (whole := whole) hop hv
  obtain ⟨p0, ps, h5, h6⟩ := ha.open hk.1 _ (after_op (t := t) hop hx hv)
  have hright : rightAt k = ruleAt (k + 1) := by
    rcases chains_cases hk.1 with rfl | rfl | rfl | rfl | rfl | rfl <;> first | rfl | exact absurd rfl hk.2.1
  refine ⟨p0, ps ++ [q, p], ?_, ?_⟩
  · intro qs rest' h7
    have hsym : ∀ c v, s.toList ++ (y ++ (u ++ rest)) = c :: v → c ≠ ' ' ∧ c ≠ '\t' := by
      obtain ⟨c, v, hcv, hw⟩ := starts_of_ok h3 (by rcases chains_cases hk.1 with rfl | rfl | rfl | rfl | rfl | rfl <;> rfl)
      intro d w hd
      rw [hcv] at hd
      cases hd
      have hcov : covered (firsts 80 (.rule (opAt k))) symbols = true := by
        rcases chains_cases hk.1 with rfl | rfl | rfl | rfl | rfl | rfl <;> first | decide +kernel | exact absurd rfl hk.2.1
      have := symbol_props (within_of_covered hcov hw)
      exact ⟨this.2.2.1, this.2.2.2.1⟩
    have h8 : Ok dsdl whole (item k) (x ++ (s.toList ++ (y ++ (u ++ rest)))) [q, p] rest := by
      refine okSeq0 (ows_ok hx hsym) (okSeq1 h3 (okSeq0 (ows_ok hy (not_blank_of hu)) ?_))
      rw [hright]
      exact h1
    have := h5 _ _ (okCons h8 h7)
    simpa using this
  · intro qs
    have := h6 (q :: p :: qs)
    simp only [List.append_assoc, List.cons_append, List.nil_append]
    rw [this]
    unfold fold
    rw [if_neg hk.2.1, if_neg hk.2.1, parseOperands, h2, bind_ok', h4, bind_ok']

theorem complete_not {x t : List Char} {e : Expr} (hx : Blank x) (h : Complete whole (.expr 1 e) t) : Complete whole (.expr 1 (.unary .not e)) ('!' :: x ++ t) := by
  refine .of_reads ?_ (by decide)
  intro rest hr
  obtain ⟨p, h1, h2⟩ := h.reads rest (hr.text (by omega))
  have hb := not_blank_of (u := rest) (expr_starts (k := 1) (by omega) h1)
  refine ⟨_, okSilent (okLeft (okRule (okAt (okSeq0 (okChar (l := "!") (c := '!') rfl) (okSeq0 (ows_ok hx hb) h1)) (by simp)))), ?_⟩
  rw [parseExpression.eq_def]
  simp only [h2, bind_ok']

theorem complete_sign {c : Char} {op : UnOp} {x t : List Char} {e : Expr} (hc : (c, op) ∈ signs) (hx : Blank x) (h : Complete whole (.expr 7 e) t) :
    Complete whole (.expr 6 (.unary op e)) (c :: x ++ t) := by
  refine .of_reads ?_ (by decide)
  intro rest hr
  obtain ⟨p, h1, h2⟩ := h.reads rest (hr.weaken.text (by omega))
  have hb := not_blank_of (u := rest) (expr_starts (k := 7) (by omega) h1)
  simp only [signs, List.mem_cons, List.not_mem_nil, or_false, Prod.mk.injEq] at hc
  rcases hc with ⟨rfl, rfl⟩ | ⟨rfl, rfl⟩
  · refine ⟨_, okSilent (okLeft (okRule (okAt (okSeq0 (okChar (l := "+") (c := '+') rfl) (okSeq0 (ows_ok hx hb) h1)) (by simp)))), ?_⟩
    rw [parseExpression.eq_def]
    simp only [h2, bind_ok']
  · refine ⟨_, okSilent (okRight (no_starts starts_char rfl (by decide +kernel)) (okLeft (okRule (okAt (okSeq0 (okChar (l := "-") (c := '-') rfl) (okSeq0 (ows_ok hx hb) h1)) (by simp))))), ?_⟩
    rw [parseExpression.eq_def]
    simp only [h2, bind_ok']

theorem complete_power {a b : Expr} {t x y u : List Char} (ha : Complete whole (.expr 8 a) t) (hx : Blank x) (hy : Blank y) (hb : Complete whole (.expr 6 b) u) :
    Complete whole (.expr 7 (.binary .exponent a b)) (t ++ x ++ "**".toList ++ y ++ u) := by
  refine .of_reads ?_ (by decide)
  intro rest hr
  have hr6 : After whole 6 u rest := by
    refine ⟨hr.name, hr.far, hr.version, fun _ => hr.point (.inr (by omega)), fun j hj hk => hr.items j hj ?_⟩
    simp only [levels, List.mem_cons, List.not_mem_nil, or_false] at hj
    omega
  obtain ⟨p, h1, h2⟩ := hb.reads rest hr6
  obtain ⟨p0, h3, h4⟩ := ha.reads _ (after_power (v := y ++ (u ++ rest)) hx)
  have hbl := not_blank_of (u := rest) (expr_starts (k := 6) (by omega) h1)
  have hop : Ok dsdl whole (.rule .op2_exp) ("**".toList ++ (y ++ (u ++ rest))) [.node .op2_exp "**".toList [.node .op2_exp_pow "**".toList []]] (y ++ (u ++ rest)) :=
    okRule (okRule okLit)
  have hitem : Ok dsdl whole (item 7) (x ++ ("**".toList ++ (y ++ (u ++ rest)))) [.node .op2_exp "**".toList [.node .op2_exp_pow "**".toList []], p] rest := by
    refine okSeq0 (ows_ok hx ?_) (okSeq1 hop (okSeq0 (ows_ok hy hbl) h1))
    intro c v hc
    cases hc
    decide
  refine ⟨_, okRule (okAt (okSeq1 h3 (okSome hitem)) (by simp only [List.append_assoc])), ?_⟩
  rw [parseExpression.eq_def]
  simp only [ruleAt, h4, bind_ok', parseOperands, h2, deepestRule, binaryOf]

theorem complete_attribute {e : Expr} {t x y n : List Char} (h : Complete whole (.expr 8 e) t) (hx : Blank x) (hy : Blank y) (hn : Name n) (hc : accepted.close t x) :
    Complete whole (.expr 8 (.attribute e (String.ofList n))) (t ++ x ++ '.' :: y ++ n) := by
  refine .of_open ?_ (by decide)
  intro rest hr
  have hblank : ∀ {z : List Char}, Blank z → z ≠ [] → ∀ s : List Char, ∃ c v, z ++ s = c :: v ∧ (c = ' ' ∨ c = '\t') := by
    intro z hz hne s
    cases z with
    | nil => exact absurd rfl hne
    | cons c z => exact ⟨c, z ++ s, rfl, hz c (by simp)⟩
  have hbc : ∀ {c : Char}, c = ' ' ∨ c = '\t' → ¬ NameChar c ∧ c ≠ '.' := by rintro c (rfl | rfl) <;> decide
  have hnb : ∀ c v, n ++ rest = c :: v → c ≠ ' ' ∧ c ≠ '\t' := by
    obtain ⟨c, cs, rfl, h1⟩ := hn.cons
    intro d v hd
    cases hd
    exact start_not_blank (.inl h1)
  have hdotb : ∀ c v, '.' :: (y ++ (n ++ rest)) = c :: v → c ≠ ' ' ∧ c ≠ '\t' := by intro c v hc; cases hc; decide
  have hname := name_ok (whole := whole) hn hr.name
  have hafter : After whole 9 t (x ++ '.' :: (y ++ (n ++ rest))) := by
    refine ⟨?_, ?_, ?_, ?_, ?_⟩
    · intro c v hcv
      by_cases hne : x = []
      · subst hne; cases hcv; decide
      · obtain ⟨d, w, hd, hd'⟩ := hblank hx hne ('.' :: (y ++ (n ++ rest)))
        rw [hd] at hcv
        cases hcv
        exact (hbc hd').1
    · intro c v hcv
      rw [trim_blank hx hdotb] at hcv
      cases hcv
      decide
    · by_cases hne : x = []
      · subst hne
        by_cases hyne : y = []
        · subst hyne
          rcases no_seq.1 hr.version with hno | ⟨ps, r, h1, h2⟩
          · exact absurd hno no_star
          · exact noSeq' (okCons (okSeq0 (okChar rfl) hname) h1) h2
        · obtain ⟨d, w, hd, hd'⟩ := hblank hy hyne (n ++ rest)
          rw [hd]
          refine noSeq' (okNil (noSeq' (okChar rfl) (no_name_rule rfl (by decide +kernel) ?_))) (noSeq' (okChar rfl) (no_name_rule rfl (by decide +kernel) ?_))
          · intro c v hcv; cases hcv; exact (hbc hd').1
          · intro c v hcv; cases hcv; exact (hbc hd').1
      · obtain ⟨d, w, hd, hd'⟩ := hblank hx hne ('.' :: (y ++ (n ++ rest)))
        refine noVersion_of ?_
        rw [hd]
        simpa using (hbc hd').2
    · rintro (⟨m, hm⟩ | hm)
      · rcases hc with hne | hno
        · obtain ⟨d, w, hd, hd'⟩ := hblank hx hne ('.' :: (y ++ (n ++ rest)))
          rw [hd]
          simpa using (hbc hd').2
        · exact absurd hm (hno m)
      · omega
    · intro j hj hk
      simp only [levels, List.mem_cons, List.not_mem_nil, or_false] at hj
      omega
  obtain ⟨p0, ps, h1, h2⟩ := h.open (by decide) _ hafter
  refine ⟨p0, ps ++ [.node .op2_attrib ['.'] [], .node .identifier n []], ?_, ?_⟩
  · intro qs rest' h3
    have h4 : Ok dsdl whole (item 8) (x ++ '.' :: (y ++ (n ++ rest))) [.node .op2_attrib ['.'] [], .node .identifier n []] rest :=
      okSeq0 (ows_ok hx hdotb) (okSeq1 (okRule (t := ['.']) (okChar rfl)) (okSeq0 (ows_ok hy hnb) hname))
    have := h1 _ _ (okCons h4 h3)
    simpa using this
  · intro qs
    have := h2 (.node .op2_attrib ['.'] [] :: .node .identifier n [] :: qs)
    simp only [List.append_assoc, List.cons_append, List.nil_append]
    rw [this]
    unfold fold
    rw [if_pos rfl, if_pos rfl, parseAttributes, if_pos ⟨rfl, rfl⟩]
    rfl

/-! ### Atoms -/

theorem expression_ok {t rest : List Char} {e : Expr} (h : Complete whole (.expr 0 e) t) (hr : After whole 0 t rest) :
    ∃ p, Ok dsdl whole (.rule .expression) (t ++ rest) [p] rest ∧ parseExpression p = .ok e ∧ ∃ c v, t = c :: v ∧ within exprStart c.toNat := by
  obtain ⟨p, h1, h2⟩ := h.reads rest hr
  refine ⟨_, okRule h1, ?_, expr_starts (k := 0) (by omega) h1⟩
  rw [parseExpression.eq_def]
  simpa only using h2

theorem atom_of {t rest : List Char} {c : Pair Rule} {e : Expr} (h : Ok dsdl whole Rule.expression_atom.body (t ++ rest) [c] rest) (hc : parseAtom c = .ok e) :
    ∃ p, Ok dsdl whole (.rule (ruleAt 9)) (t ++ rest) [p] rest ∧ parseExpression p = .ok e := by
  refine ⟨_, okRule h, ?_⟩
  rw [parseExpression.eq_def]
  simpa only [ruleAt] using hc

theorem literal_atom {t rest : List Char} {c : Pair Rule} {e : Expr} (hp : No dsdl whole (.rule .expression_parenthesized) (t ++ rest)) (hd : No dsdl whole (.rule .dtype) (t ++ rest))
    (h : Ok dsdl whole (.rule .literal) (t ++ rest) [.node .literal t [c]] rest) (hc : parseLiteral c = .ok e) :
    ∃ p, Ok dsdl whole (.rule (ruleAt 9)) (t ++ rest) [p] rest ∧ parseExpression p = .ok e := by
  refine atom_of (okRight hp (okRight hd (okLeft h))) ?_
  rw [parseAtom.eq_def]
  simpa only using hc

theorem noAt {e : Peg Rule} {s s' : List Char} (h : No dsdl whole e s) (hs : s' = s) : No dsdl whole e s' := hs ▸ h

theorem dtype_no {s : List Char} (h : No dsdl whole (.rule .type_scalar) s) : No dsdl whole (.rule .dtype) s :=
  noRule (noChoice (noRule (noChoice (noRule (noSeq h)) (noChoice (noRule (noSeq h)) (noRule (noSeq h))))) h)

theorem complete_parenthesized {x y t : List Char} {e : Expr} (hx : Blank x) (hy : Blank y) (h : Complete whole (.expr 0 e) t) :
    Complete whole (.expr 9 (.parenthesized e)) ('(' :: x ++ t ++ y ++ [')']) := by
  refine .of_reads ?_ (by decide)
  intro rest _
  obtain ⟨p, h1, h2, h3⟩ := expression_ok h (after_char (whole := whole) (s := rest) (c := ')') hy (by decide))
  have h4 : Ok dsdl whole (.rule .expression_parenthesized) ('(' :: x ++ t ++ y ++ [')'] ++ rest) [.node .expression_parenthesized ('(' :: x ++ t ++ y ++ [')']) [p]] rest := by
    refine okRule (okAt (okSeq0 (okChar (l := "(") (c := '(') rfl) (okSeq0 (ows_ok hx (not_blank_of h3)) (okSeq1 h1 (okSeq0 (ows_ok hy ?_) (okChar (l := ")") rfl))))) (by simp))
    intro c v hc; cases hc; decide
  refine atom_of (okLeft h4) ?_
  rw [parseAtom.eq_def]
  simp only [h2, bind_ok']

theorem not_digit_start {c : Char} (h : NameStart c) : ¬ ('0' ≤ c ∧ c ≤ '9') := by
  have e1 : 'a'.toNat = 97 := rfl
  have e2 : 'z'.toNat = 122 := rfl
  have e3 : 'A'.toNat = 65 := rfl
  have e4 : 'Z'.toNat = 90 := rfl
  have e5 : '_'.toNat = 95 := rfl
  have e6 : '0'.toNat = 48 := rfl
  have e7 : '9'.toNat = 57 := rfl
  unfold NameStart at h
  simp only [char_le, char_eq] at h ⊢
  omega

/-- The characters that a name may begin with. -/
def nameStarts : List (Nat × Nat) := [(65, 90), (95, 95), (97, 122)]

theorem name_starts {n rest : List Char} (h : Name n) : Starts nameStarts (n ++ rest) := by
  obtain ⟨c, cs, rfl, hc⟩ := h.cons
  refine starts_cons ?_
  have e1 : 'a'.toNat = 97 := rfl
  have e2 : 'z'.toNat = 122 := rfl
  have e3 : 'A'.toNat = 65 := rfl
  have e4 : 'Z'.toNat = 90 := rfl
  have e5 : '_'.toNat = 95 := rfl
  unfold NameStart at hc
  simp only [char_le, char_eq] at hc
  rcases hc with hc | hc | hc
  · exact ⟨(97, 122), by decide, by simp only; omega, by simp only; omega⟩
  · exact ⟨(65, 90), by decide, by simp only; omega, by simp only; omega⟩
  · exact ⟨(95, 95), by decide, by simp only; omega, by simp only; omega⟩

theorem After.noFar {k : Nat} {t rest : List Char} (h : After whole k t rest) : NoName (trim rest) := fun c u hc => (h.far c u hc).1

theorem complete_identifier {n : List Char} (hn : Name n) (hr : ¬ Reserved n) : Complete whole (.expr 9 (.identifier (String.ofList n))) n := by
  refine .of_reads ?_ (by decide)
  intro rest ha
  have hs : Starts nameStarts (n ++ rest) := name_starts hn
  have htl : ¬ TypeLike n := by
    rintro (⟨w, hw, h⟩ | h)
    · refine hr (.inl ⟨w, ?_, h⟩)
      simp only [List.mem_cons, List.not_mem_nil, or_false] at hw ⊢
      tauto
    · exact hr (.inr h)
  have hbool : No dsdl whole (.rule .literal_boolean) (n ++ rest) := by
    have word : ∀ {w : String}, w ∈ ["true", "false"] → No dsdl whole (.lit w) (n ++ rest) := by
      intro w hw
      have chars : ∀ w ∈ ["true", "false"], ∀ c ∈ w.toList, NameChar c := by decide
      refine no_lit.2 fun h => hr (.inl ⟨w, ?_, prefix_name (chars w hw) ha.name h⟩)
      simp only [List.mem_cons, List.not_mem_nil, or_false] at hw ⊢
      tauto
    exact noRule (noChoice (noRule (word (by decide))) (noRule (word (by decide))))
  refine atom_of (okRight (no_starts hs rfl (by decide +kernel)) (okRight (dtype_no (scalar_no hn htl ha.name ha.version ha.noFar))
    (okRight (noRule (noChoice (no_starts hs rfl (by decide +kernel)) (noChoice (no_starts hs rfl (by decide +kernel)) (noChoice (no_starts hs rfl (by decide +kernel))
      (noChoice (no_starts hs rfl (by decide +kernel)) hbool))))) (name_ok hn ha.name)))) ?_
  rw [parseAtom.eq_def]

theorem number_starts {t rest : List Char} {q : ℚ} (h : accepted.number t q) : Starts [(48, 57)] (t ++ rest) := by
  obtain ⟨h, h0⟩ := h
  have mant : ∀ {t b}, Mantissa List.length t b → t.head? ≠ some '.' → ∀ r, Starts [(48, 57)] (t ++ r) := by
    intro t b hm h0 r
    cases hm with
    | whole h => exact h.starts
    | point h => rw [List.append_assoc]; exact h.starts
    | fraction h => rw [List.append_assoc]; exact h.starts
    | onlyFraction => exact absurd rfl h0
  have mhead : ∀ {t b x}, Mantissa List.length t b → (t ++ x).head? ≠ some '.' → t.head? ≠ some '.' := by
    intro t b x hm hh
    cases t with
    | nil =>
      intro h
      cases h
    | cons c t => exact hh
  cases h with
  | binary => exact decimal_digit_starts (by decide)
  | octal => exact decimal_digit_starts (by decide)
  | hexadecimal => exact decimal_digit_starts (by decide)
  | integer h => exact h.starts
  | real h _ => exact mant h h0 _
  | exponent h => rw [List.append_assoc]; exact mant h (mhead h h0) _
  | exponentPlus h => rw [List.append_assoc]; exact mant h (mhead h h0) _
  | exponentMinus h => rw [List.append_assoc]; exact mant h (mhead h h0) _

theorem complete_number {t : List Char} {q : ℚ} (h : accepted.number t q) : Complete whole (.expr 9 (.number q)) t := by
  refine .of_reads ?_ (by decide)
  intro rest ha
  obtain ⟨c, h1, h2⟩ := number_ok (whole := whole) h ha.name fun hg => ha.point (.inl hg)
  have hs := number_starts (rest := rest) h
  exact literal_atom (no_starts hs rfl (by decide +kernel)) (no_starts hs rfl (by decide +kernel)) h1 h2

theorem complete_string {t : List Char} {s : String} (h : StringText HexPlus t s) : Complete whole (.expr 9 (.string s)) t := by
  refine .of_reads ?_ (by decide)
  intro rest _
  obtain ⟨c, h1, h2⟩ := string_ok (whole := whole) (rest := rest) h
  have hs : Starts [(34, 34), (39, 39)] (t ++ rest) := by
    obtain ⟨q, body, hq, rfl, -⟩ := h
    refine starts_cons ?_
    rcases hq with rfl | rfl <;> decide
  exact literal_atom (no_starts hs rfl (by decide +kernel)) (no_starts hs rfl (by decide +kernel)) h1 h2

theorem complete_true : Complete whole (.expr 9 (.boolean true)) "true".toList := by
  refine .of_reads ?_ (by decide)
  intro rest ha
  have hn : Name "true".toList := ⟨'t', "rue".toList, rfl, by decide, by decide⟩
  have hs : Starts [(116, 116)] ("true".toList ++ rest) := starts_cons (by decide)
  have htl : ¬ TypeLike "true".toList := by
    rintro (⟨w, hw, h⟩ | ⟨w, hw, d, h1, h2, h⟩)
    · revert w; decide
    · have : w.toList <+: "true".toList := (List.prefix_append _ _).trans h
      clear h h1 h2
      revert w; decide
  refine literal_atom (c := .node .literal_boolean "true".toList [.node .literal_boolean_true "true".toList []]) (no_starts hs rfl (by decide +kernel))
    (dtype_no (scalar_no hn htl ha.name ha.version ha.noFar)) (okRule (okRight (no_starts hs rfl (by decide +kernel)) (okRight (no_starts hs rfl (by decide +kernel))
      (okRight (no_starts hs rfl (by decide +kernel)) (okRight (no_starts hs rfl (by decide +kernel)) (okRule (okLeft (okRule okLit)))))))) ?_
  rw [parseLiteral.eq_def]
  rfl

theorem complete_false : Complete whole (.expr 9 (.boolean false)) "false".toList := by
  refine .of_reads ?_ (by decide)
  intro rest ha
  have hn : Name "false".toList := ⟨'f', "alse".toList, rfl, by decide, by decide⟩
  have hs : Starts [(102, 102)] ("false".toList ++ rest) := starts_cons (by decide)
  have htl : ¬ TypeLike "false".toList := by
    rintro (⟨w, hw, h⟩ | ⟨w, hw, d, h1, h2, h⟩)
    · revert w; decide
    · have : w.toList <+: "false".toList := (List.prefix_append _ _).trans h
      clear h h1 h2
      revert w; decide
  refine literal_atom (c := .node .literal_boolean "false".toList [.node .literal_boolean_false "false".toList []]) (no_starts hs rfl (by decide +kernel))
    (dtype_no (scalar_no hn htl ha.name ha.version ha.noFar)) (okRule (okRight (no_starts hs rfl (by decide +kernel)) (okRight (no_starts hs rfl (by decide +kernel))
      (okRight (no_starts hs rfl (by decide +kernel)) (okRight (no_starts hs rfl (by decide +kernel)) (okRule (okRight (noRule (noLit (by decide))) (okRule okLit)))))))) ?_
  rw [parseLiteral.eq_def]
  rfl

theorem set_atom {t rest : List Char} {c : Pair Rule} {e : Expr} {u : List Char} (ht : t = '{' :: u) (h : Ok dsdl whole (.rule .literal_set) (t ++ rest) [c] rest)
    (hc : parseLiteral c = .ok e) : ∃ p, Ok dsdl whole (.rule (ruleAt 9)) (t ++ rest) [p] rest ∧ parseExpression p = .ok e := by
  have hs : Starts [(123, 123)] (t ++ rest) := by rw [ht]; exact starts_cons (by decide)
  exact literal_atom (no_starts hs rfl (by decide +kernel)) (no_starts hs rfl (by decide +kernel)) (okRule (okLeft h)) hc

theorem complete_emptySet {x y : List Char} (hx : Blank x) (hy : Blank y) : Complete whole (.expr 9 (.set [])) ('{' :: x ++ y ++ ['}']) := by
  refine .of_reads ?_ (by decide)
  intro rest _
  have hb : ∀ c v, '}' :: rest = c :: v → c ≠ ' ' ∧ c ≠ '\t' := by intro c v hc; cases hc; decide
  have hxy : Blank (x ++ y) := fun c hc => (List.mem_append.1 hc).elim (hx c) (hy c)
  have hlist : Ok dsdl whole (.rule .expression_list) ([] ++ '}' :: rest) [.node .expression_list [] []] ('}' :: rest) :=
    okRule (okNone (noSeq (no_starts starts_char rfl (by decide +kernel))))
  refine set_atom (u := x ++ y ++ ['}']) (by simp) (okRule (okAt (okSeq0 (okChar (l := "{") (c := '{') rfl) (okSeq0 (ows_ok hxy hb) (okSeq1 hlist
    (okSeq0 (ows_ok (x := []) nofun hb) (okChar (l := "}") rfl))))) (by simp))) ?_
  rw [parseLiteral.eq_def]
  simp only [parseExpressionList, parseExpressions, bind_ok']

theorem complete_set {x y t : List Char} {es : List Expr} (hx : Blank x) (hy : Blank y) (h : Complete whole (.list es) t) : Complete whole (.expr 9 (.set es)) ('{' :: x ++ t ++ y ++ ['}']) := by
  refine .of_reads ?_ (by decide)
  intro rest _
  have hb : ∀ c v, '}' :: rest = c :: v → c ≠ ' ' ∧ c ≠ '\t' := by intro c v hc; cases hc; decide
  obtain ⟨p0, ps, h1, h2⟩ := h (y ++ '}' :: rest) (after_char hy (by decide))
  have hnil : Ok dsdl whole (.star element) (y ++ '}' :: rest) [] (y ++ '}' :: rest) := by
    refine okNil (noSeq' (ows_ok hy hb) (noSeq (noChar (c := ',') rfl ?_)))
    intro d u hd; cases hd; decide
  have h3 := h1 _ _ hnil
  have h4 := h2 [] [] (by rw [parseExpressions])
  rw [List.append_nil] at h3 h4
  rw [List.append_nil] at h4
  have hstart : ∃ c v, t = c :: v ∧ within exprStart c.toNat := by
    obtain ⟨qs, r, qs', h5, -, -⟩ := ok_seq.1 h3
    obtain ⟨u, hu, hd⟩ := h5.derives
    obtain ⟨c, v, hcv, hw⟩ := starts_of_ok (r := .expression) (t := u) (rest := r) (hu ▸ h5) rfl
    have hne : within exprStart c.toNat := within_of_covered (by decide +kernel) hw
    cases t with
    | nil =>
      exfalso
      rw [hcv, List.nil_append] at hu
      cases y with
      | nil =>
        obtain ⟨rfl, -⟩ := List.cons.inj hu
        exact (exprStart_props hne).2.2.2.2.2 rfl
      | cons d y =>
        obtain ⟨rfl, -⟩ := List.cons.inj hu
        have := exprStart_props hne
        rcases hy _ List.mem_cons_self with h | h
        · exact this.1 h
        · exact this.2.1 h
    | cons d t =>
      rw [hcv] at hu
      obtain ⟨rfl, -⟩ := List.cons.inj hu
      exact ⟨_, t, rfl, hne⟩
  refine set_atom (u := x ++ t ++ y ++ ['}']) (by simp) (okRule (okAt (okSeq0 (okChar (l := "{") (c := '{') rfl) (okSeq0 (ows_ok hx (not_blank_of hstart)) (okSeq1 (okRule (r := .expression_list) (okSome h3))
    (okSeq0 (ows_ok hy hb) (okChar (l := "}") rfl))))) (by simp))) ?_
  rw [parseLiteral.eq_def]
  simp only [parseExpressionList, h4, bind_ok']

theorem scalar_dtype {s : ScalarTy} {t rest : List Char} (h : ScalarText s t) (hr : NoName rest) (hv : NoVersion whole rest) (hf : ∀ c u, trim rest = c :: u → c ≠ '[') :
    ∃ c, Ok dsdl whole (.rule .dtype) (t ++ rest) [.node .dtype t [c]] rest ∧ parseArrayOrScalar c = .ok (.scalar s) := by
  obtain ⟨ps, h1, h2⟩ := scalar_ok (whole := whole) h hr hv
  have hno : ∀ {e : Peg Rule}, No dsdl whole (.seq (.rule .type_scalar) (.seq ows (.seq (.lit "[") e))) (t ++ rest) := by
    intro e
    exact noSeq' h1 (noSeq' ows_trim (noSeq (noChar (c := '[') rfl hf)))
  refine ⟨.node .type_scalar t ps, okRule (okRight (noRule (noChoice (noRule hno) (noChoice (noRule hno) (noRule hno)))) h1), ?_⟩
  rw [parseArrayOrScalar.eq_def]
  simp only [h2, bind_ok']

theorem complete_scalar {s : ScalarTy} {t : List Char} (h : ScalarText s t) : Complete whole (.expr 9 (.scalarType s)) t := by
  refine .of_reads ?_ (by decide)
  intro rest ha
  obtain ⟨c, h1, h2⟩ := scalar_dtype (whole := whole) h ha.name ha.version fun d u hd => (ha.far d u hd).2
  have hp : No dsdl whole (.rule .expression_parenthesized) (t ++ rest) := by
    obtain ⟨c, u, hcu, hw⟩ := starts_of_ok h1 rfl
    rw [hcu]
    exact no_starts (starts_cons hw) rfl (by decide +kernel)
  refine atom_of (okRight hp (okLeft h1)) ?_
  rw [parseAtom.eq_def]
  simp only [h2, bind_ok', typeExpr]

/-- An array is matched as a whole. -/
theorem array_ok {s : ScalarTy} {t : List Char} {k : ArrayKind} {x y z w u rest : List Char} {e : Expr} (hs : ScalarText s t) (hx : Blank x) (hy : Blank y) (hz : Blank z) (hw : Blank w)
    (hk : k = .fixed → z = []) (h : Complete whole (.expr 0 e) u) :
    ∃ c, Ok dsdl whole (.rule .dtype) (t ++ x ++ '[' :: y ++ arrayOpen k ++ z ++ u ++ w ++ [']'] ++ rest) [.node .dtype (t ++ x ++ '[' :: y ++ arrayOpen k ++ z ++ u ++ w ++ [']']) [c]] rest ∧
      parseArrayOrScalar c = .ok (.array s k e) := by
  obtain ⟨p, h1, h2, h3⟩ := expression_ok h (after_char (whole := whole) (s := rest) (c := ']') hw (by decide))
  have hopen : ∀ v : List Char, NoName (x ++ '[' :: v) ∧ NoVersion whole (x ++ '[' :: v) := by
    intro v
    have hc : ∀ c u, x ++ '[' :: v = c :: u → ¬ NameChar c ∧ c ≠ '.' := by
      intro c u hc
      cases x with
      | nil => cases hc; decide
      | cons d x =>
        cases hc
        rcases hx c (by simp) with rfl | rfl <;> decide
    refine ⟨fun c u h => (hc c u h).1, noVersion_of ?_⟩
    intro hh
    cases hxv : x ++ '[' :: v with
    | nil => rw [hxv] at hh; cases hh
    | cons c u => rw [hxv] at hh; cases hh; exact (hc _ _ hxv).2 rfl
  obtain ⟨c, v, hcv, hcw⟩ := h3
  have hc := exprStart_props hcw
  have hbu := not_blank_of (u := w ++ ']' :: rest) ⟨c, v, hcv, hcw⟩
  have hbr : ∀ c v, ']' :: rest = c :: v → c ≠ ' ' ∧ c ≠ '\t' := by intro c v hc; cases hc; decide
  have hbo : ∀ s c v, '[' :: s = c :: v → c ≠ ' ' ∧ c ≠ '\t' := by intro s c v hc; cases hc; decide
  -- the part after `[`
  have tail : Ok dsdl whole (.seq (.rule .expression) (.seq ows (.lit "]"))) (u ++ (w ++ ']' :: rest)) [p] rest := okSeq1 h1 (okSeq0 (ows_ok hw hbr) (okChar (l := "]") rfl))
  cases k with
  | fixed =>
    obtain rfl := hk rfl
    obtain ⟨hn, hv⟩ := hopen (y ++ (u ++ (w ++ ']' :: rest)))
    obtain ⟨ps, h4, h5⟩ := scalar_ok (whole := whole) hs hn hv
    have hno : ∀ {l : String} {e : Peg Rule}, (∃ a b, l.toList = '<' :: a ∧ b = a) →
        No dsdl whole (.seq (.rule .type_scalar) (.seq ows (.seq (.lit "[") (.seq ows (.seq (.lit l) e))))) (t ++ (x ++ '[' :: (y ++ (u ++ (w ++ ']' :: rest))))) := by
      rintro l e ⟨a, b, hl, -⟩
      refine noSeq' h4 (noSeq' (ows_ok hx (hbo _)) (noSeq' (okChar rfl) (noSeq' (ows_ok hy hbu) (noSeq ?_))))
      rw [no_lit, hl, hcv]
      rintro ⟨r, hr⟩
      simp only [List.cons_append, List.cons.injEq] at hr
      exact hc.2.2.2.2.1 hr.1.symm
    refine ⟨.node .type_array (t ++ x ++ '[' :: y ++ arrayOpen .fixed ++ [] ++ u ++ w ++ [']'])
      [.node .type_array_fixed (t ++ x ++ '[' :: y ++ arrayOpen .fixed ++ [] ++ u ++ w ++ [']']) [.node .type_scalar t ps, p]], okRule (okLeft (okRule ?_)), ?_⟩
    · refine okRight (noRule ?_) (okRight (noRule ?_) (okRule ?_))
      · have := hno (l := "<=") (e := .seq ows (.seq (.rule .expression) (.seq ows (.lit "]")))) ⟨_, _, rfl, rfl⟩
        exact noAt this (by simp [arrayOpen])
      · have := hno (l := "<") (e := .seq ows (.seq (.rule .expression) (.seq ows (.lit "]")))) ⟨_, _, rfl, rfl⟩
        exact noAt this (by simp [arrayOpen])
      · exact okAt (okSeq1 h4 (okSeq0 (ows_ok hx (hbo _)) (okSeq0 (okChar (l := "[") rfl) (okSeq0 (ows_ok hy hbu) tail)))) (by simp [arrayOpen])
    · rw [parseArrayOrScalar.eq_def]
      simp only
      rw [parseArrayVariant.eq_def]
      simp only [h5, h2, bind_ok', arrayKind]
  | inclusive =>
    obtain ⟨hn, hv⟩ := hopen (y ++ ("<=".toList ++ (z ++ (u ++ (w ++ ']' :: rest)))))
    obtain ⟨ps, h4, h5⟩ := scalar_ok (whole := whole) hs hn hv
    refine ⟨.node .type_array (t ++ x ++ '[' :: y ++ arrayOpen .inclusive ++ z ++ u ++ w ++ [']'])
      [.node .type_array_variable_inclusive (t ++ x ++ '[' :: y ++ arrayOpen .inclusive ++ z ++ u ++ w ++ [']']) [.node .type_scalar t ps, p]],
      okRule (okLeft (okRule (okLeft (okRule ?_)))), ?_⟩
    · refine okAt (okSeq1 h4 (okSeq0 (ows_ok hx (hbo _)) (okSeq0 (okChar (l := "[") rfl) (okSeq0 (ows_ok hy ?_) (okSeq0 (okLit (l := "<=")) (okSeq0 (ows_ok hz hbu) tail))))))
        (by simp [arrayOpen])
      intro c v hc; cases hc; decide
    · rw [parseArrayOrScalar.eq_def]
      simp only
      rw [parseArrayVariant.eq_def]
      simp only [h5, h2, bind_ok', arrayKind]
  | exclusive =>
    obtain ⟨hn, hv⟩ := hopen (y ++ ('<' :: (z ++ (u ++ (w ++ ']' :: rest)))))
    obtain ⟨ps, h4, h5⟩ := scalar_ok (whole := whole) hs hn hv
    have hbl : ∀ s c v, '<' :: s = c :: v → c ≠ ' ' ∧ c ≠ '\t' := by intro s c v hc; cases hc; decide
    refine ⟨.node .type_array (t ++ x ++ '[' :: y ++ arrayOpen .exclusive ++ z ++ u ++ w ++ [']'])
      [.node .type_array_variable_exclusive (t ++ x ++ '[' :: y ++ arrayOpen .exclusive ++ z ++ u ++ w ++ [']']) [.node .type_scalar t ps, p]],
      okRule (okLeft (okRule (okRight (noRule ?_) (okLeft (okRule ?_))))), ?_⟩
    · have : No dsdl whole (.seq (.rule .type_scalar) (.seq ows (.seq (.lit "[") (.seq ows (.seq (.lit "<=") (.seq ows (.seq (.rule .expression) (.seq ows (.lit "]")))))))))
          (t ++ (x ++ '[' :: (y ++ ('<' :: (z ++ (u ++ (w ++ ']' :: rest))))))) := by
        refine noSeq' h4 (noSeq' (ows_ok hx (hbo _)) (noSeq' (okChar rfl) (noSeq' (ows_ok hy (hbl _)) (noSeq (noTwo rfl ?_)))))
        intro d r hd
        cases z with
        | nil =>
          rw [hcv] at hd
          cases hd
          exact hc.2.2.1
        | cons d' z =>
          cases hd
          rcases hz d (by simp) with rfl | rfl <;> decide
      exact noAt this (by simp [arrayOpen])
    · exact okAt (okSeq1 h4 (okSeq0 (ows_ok hx (hbo _)) (okSeq0 (okChar (l := "[") rfl) (okSeq0 (ows_ok hy (hbl _)) (okSeq0 (okChar (l := "<") rfl) (okSeq0 (ows_ok hz hbu) tail))))))
        (by simp [arrayOpen])
    · rw [parseArrayOrScalar.eq_def]
      simp only
      rw [parseArrayVariant.eq_def]
      simp only [h5, h2, bind_ok', arrayKind]

theorem complete_array {s : ScalarTy} {t : List Char} {k : ArrayKind} {x y z w u : List Char} {e : Expr} (hs : ScalarText s t) (hx : Blank x) (hy : Blank y) (hz : Blank z) (hw : Blank w)
    (hk : k = .fixed → z = []) (h : Complete whole (.expr 0 e) u) :
    Complete whole (.expr 9 (.arrayType s k e)) (t ++ x ++ '[' :: y ++ arrayOpen k ++ z ++ u ++ w ++ [']']) := by
  refine .of_reads ?_ (by decide)
  intro rest _
  obtain ⟨c, h1, h2⟩ := array_ok (rest := rest) hs hx hy hz hw hk h
  have hp : No dsdl whole (.rule .expression_parenthesized) (t ++ x ++ '[' :: y ++ arrayOpen k ++ z ++ u ++ w ++ [']'] ++ rest) := by
    obtain ⟨c, u, hcu, hw⟩ := starts_of_ok h1 rfl
    rw [hcu]
    exact no_starts (starts_cons hw) rfl (by decide +kernel)
  refine atom_of (okRight hp (okLeft h1)) ?_
  rw [parseAtom.eq_def]
  simp only [h2, bind_ok', typeExpr]

/-! ### Lists -/

theorem complete_one {t : List Char} {e : Expr} (h : Complete whole (.expr 0 e) t) : Complete whole (.list [e]) t := by
  intro rest ha
  obtain ⟨p, h1, h2, -⟩ := expression_ok h ha
  refine ⟨p, [], fun qs rest' h3 => okSeq1 h1 h3, fun qs es' h3 => ?_⟩
  rw [List.nil_append, parseExpressions, h2, bind_ok', h3, bind_ok']
  rfl

theorem complete_more {es : List Expr} {t x y u : List Char} {e : Expr} (h : Complete whole (.list es) t) (hx : Blank x) (hy : Blank y) (he : Complete whole (.expr 0 e) u) :
    Complete whole (.list (es ++ [e])) (t ++ x ++ ',' :: y ++ u) := by
  intro rest ha
  obtain ⟨p, h1, h2, h3⟩ := expression_ok he (ha.text (by omega))
  obtain ⟨p0, ps, h4, h5⟩ := h (x ++ ',' :: (y ++ (u ++ rest))) (after_char hx (by decide))
  refine ⟨p0, ps ++ [p], fun qs rest' h6 => ?_, fun qs es' h6 => ?_⟩
  · have h7 : Ok dsdl whole element (x ++ ',' :: (y ++ (u ++ rest))) [p] rest := by
      refine okSeq0 (ows_ok hx ?_) (okSeq0 (okChar rfl) (okSeq0 (ows_ok hy (not_blank_of h3)) h1))
      intro c v hc; cases hc; decide
    have := h4 _ _ (okCons h7 h6)
    simpa using this
  · have h7 : parseExpressions (p :: qs) = .ok (e :: es') := by rw [parseExpressions, h2, bind_ok', h6, bind_ok']
    have := h5 _ _ h7
    simpa using this

/-- Every expression is matched as a whole and read. -/
theorem complete {i : Item} {t : List Char} (h : Written accepted i t) : Complete whole i t := by
  induction h with
  | tighter hk _ ih => exact complete_tighter hk ih
  | binary hop _ hx hy _ ih1 ih2 => exact complete_binary hop ih1 hx hy ih2
  | not hx _ ih => exact complete_not hx ih
  | sign hc hx _ ih => exact complete_sign hc hx ih
  | power _ hx hy _ ih1 ih2 => exact complete_power ih1 hx hy ih2
  | «attribute» _ hx hy hn hc ih => exact complete_attribute ih hx hy hn hc
  | parenthesized hx hy _ ih => exact complete_parenthesized hx hy ih
  | identifier hn hr => exact complete_identifier hn hr
  | number h => exact complete_number h
  | string h => exact complete_string h
  | true => exact complete_true
  | false => exact complete_false
  | emptySet hx hy => exact complete_emptySet hx hy
  | set hx hy _ ih => exact complete_set hx hy ih
  | scalarType h => exact complete_scalar h
  | arrayType hs hx hy hz hw hk _ ih => exact complete_array hs hx hy hz hw hk ih
  | one _ ih => exact complete_one ih
  | more _ hx hy _ ih1 ih2 => exact complete_more ih1 hx hy ih2

end Verif.Parse
