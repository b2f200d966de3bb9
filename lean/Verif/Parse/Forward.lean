import Verif.Parse.Digits

/-!
When the grammar matches: each literal, name and type that is written as specified is matched as a whole.
-/

namespace Verif.Parse

open Verif.Front

variable {whole : List Char}

theorem bind_ok' {α β : Type} {a : α} {f : α → Outcome β} : (Outcome.ok a).bind f = f a := rfl

/-! ### The first character -/

theorem char_eq {a b : Char} : a = b ↔ a.toNat = b.toNat := by
  constructor
  · rintro rfl; rfl
  · intro h; exact Char.ext (UInt32.toNat_inj.1 h)

/-- A rule matches or it does not. -/
theorem total (r : Rule) (s : List Char) : (∃ ps rest, Ok dsdl whole (.rule r) s ps rest) ∨ No dsdl whole (.rule r) s := by
  have h : run dsdl whole (enough s) (.rule r) s ≠ .timeout := by
    refine run_ends dsdl_guarded (k := 20) (le_refl _) ?_ ?_
    · simp only [Peg.guarded, decide_eq_true_eq]; exact dsdl_guarded.rank r
    · simp [Peg.depth, Peg.size, enough]
  cases hr : run dsdl whole (enough s) (.rule r) s with
  | timeout => exact absurd hr h
  | fail => exact .inr ⟨_, hr⟩
  | ok ps rest => exact .inl ⟨ps, rest, _, hr⟩

/-- The characters that a match may begin with, as ranges of their numbers. -/
def firsts : Nat → Peg Rule → List (Nat × Nat)
  | 0, _ => [(0, 0x110000)]
  | n + 1, e =>
    match e with
    | .lit l => match l.toList with
      | [] => []
      | c :: _ => [(c.toNat, c.toNat)]
    | .range a b => [(a.toNat, b.toNat)]
    | .any => [(0, 0x110000)]
    | .soi => []
    | .eoi => []
    | .not _ => []
    | .rule r => firsts n r.body
    | .seq a b => if a.nullable Rule.nullable then firsts n a ++ firsts n b else firsts n a
    | .choice a b => firsts n a ++ firsts n b
    | .opt a => firsts n a
    | .star a => firsts n a

/-- Whether a character is in one of the ranges. -/
def within (rs : List (Nat × Nat)) (n : Nat) : Prop := ∃ r ∈ rs, r.1 ≤ n ∧ n ≤ r.2

theorem char_lt (c : Char) : c.toNat < 0x110000 := by
  have := c.valid
  rcases this with h | h
  · exact Nat.lt_trans h (by decide)
  · exact h.2

theorem firsts_sound {e : Peg Rule} {t ps} (h : Derives dsdl e t ps) : ∀ n c u, t = c :: u → within (firsts n e) c.toNat := by
  have zero : ∀ {e : Peg Rule} {c : Char}, within (firsts 0 e) c.toNat := fun {e c} => ⟨_, List.mem_singleton.2 rfl, Nat.zero_le _, Nat.le_of_lt (char_lt c)⟩
  have left : ∀ {a b : List (Nat × Nat)} {n : Nat}, within a n → within (a ++ b) n := fun ⟨r, h1, h2⟩ => ⟨r, List.mem_append_left _ h1, h2⟩
  have right : ∀ {a b : List (Nat × Nat)} {n : Nat}, within b n → within (a ++ b) n := fun ⟨r, h1, h2⟩ => ⟨r, List.mem_append_right _ h1, h2⟩
  induction h with
  | lit l =>
    intro n c u hc
    cases n with
    | zero => exact zero
    | succ n => simp only [firsts, hc]; exact ⟨_, List.mem_singleton.2 rfl, le_refl _, le_refl _⟩
  | range a b c h1 h2 =>
    intro n c' u hc
    cases hc
    cases n with
    | zero => exact zero
    | succ n => exact ⟨_, List.mem_singleton.2 rfl, char_le.1 h1, char_le.1 h2⟩
  | any c =>
    intro n c' u hc
    cases n with
    | zero => exact zero
    | succ n => exact ⟨_, List.mem_singleton.2 rfl, Nat.zero_le _, Nat.le_of_lt (char_lt c')⟩
  | soi => intro n c u hc; cases hc
  | eoi => intro n c u hc; cases hc
  | @seq a b t u ps qs h1 _ ih1 ih2 =>
    intro n c v hc
    cases n with
    | zero => exact zero
    | succ n =>
      simp only [firsts]
      cases t with
      | nil =>
        have : a.nullable Rule.nullable = true := by
          by_contra hn
          exact h1.not_nullable dsdl_guarded.nullable (by simpa using hn) rfl
        rw [if_pos this]
        exact right (ih2 n c v hc)
      | cons d t =>
        cases hc
        have := ih1 n c t rfl
        split
        · exact left this
        · exact this
  | choiceLeft _ ih =>
    intro n c u hc
    cases n with
    | zero => exact zero
    | succ n => exact left (ih n c u hc)
  | choiceRight _ ih =>
    intro n c u hc
    cases n with
    | zero => exact zero
    | succ n => exact right (ih n c u hc)
  | optNone => intro n c u hc; cases hc
  | optSome _ ih =>
    intro n c u hc
    cases n with
    | zero => exact zero
    | succ n => exact ih n c u hc
  | starNil => intro n c u hc; cases hc
  | @starCons a t u ps qs _ _ ih1 ih2 =>
    intro n c v hc
    cases t with
    | nil => exact ih2 n c v hc
    | cons d t =>
      cases hc
      cases n with
      | zero => exact zero
      | succ n => exact ih1 n c t rfl
  | not => intro n c u hc; cases hc
  | silent _ _ ih =>
    intro n c u hc
    cases n with
    | zero => exact zero
    | succ n => exact ih n c u hc
  | normal _ _ ih =>
    intro n c u hc
    cases n with
    | zero => exact zero
    | succ n => exact ih n c u hc

/-- A rule does not match if the next character is none that it may begin with. -/
theorem no_first {r : Rule} {s : List Char} (hn : r.nullable = false) (h : ∀ c u, s = c :: u → ¬ within (firsts 80 (.rule r)) c.toNat) : No dsdl whole (.rule r) s := by
  rcases total (whole := whole) r s with ⟨ps, rest, hok⟩ | hno
  · obtain ⟨t, rfl, hd⟩ := hok.derives
    cases t with
    | nil => exact absurd rfl (hd.not_nullable dsdl_guarded.nullable hn)
    | cons c t => exact absurd (firsts_sound hd 80 c t rfl) (h c (t ++ rest) rfl)
  · exact hno

/-- Ranges without common characters. -/
def apart (a b : List (Nat × Nat)) : Bool := a.all fun r => b.all fun q => decide (r.2 < q.1 ∨ q.2 < r.1)

theorem not_within {a b : List (Nat × Nat)} (h : apart a b = true) {n : Nat} (ha : within a n) : ¬ within b n := by
  rintro ⟨q, hq, h1, h2⟩
  obtain ⟨r, hr, h3, h4⟩ := ha
  have := List.all_eq_true.1 (List.all_eq_true.1 h r hr) q hq
  simp only [decide_eq_true_eq] at this
  omega

/-- The text begins with one of these characters, if there is any. -/
def Starts (cls : List (Nat × Nat)) (s : List Char) : Prop := ∀ c u, s = c :: u → within cls c.toNat

theorem starts_cons {cls : List (Nat × Nat)} {c : Char} {u : List Char} (h : within cls c.toNat) : Starts cls (c :: u) := by
  intro c' u' h'; cases h'; exact h

theorem starts_char {c : Char} {u : List Char} : Starts [(c.toNat, c.toNat)] (c :: u) := starts_cons ⟨_, List.mem_singleton.2 rfl, le_refl _, le_refl _⟩

theorem no_starts {r : Rule} {cls : List (Nat × Nat)} {s : List Char} (hs : Starts cls s) (hn : r.nullable = false) (h : apart cls (firsts 80 (.rule r)) = true) :
    No dsdl whole (.rule r) s := no_first hn fun c u hc => not_within h (hs c u hc)

/-- What a rule matches begins with one of the characters that it may begin with. -/
theorem starts_of_ok {r : Rule} {t rest : List Char} {ps} (h : Ok dsdl whole (.rule r) (t ++ rest) ps rest) (hn : r.nullable = false) :
    ∃ c u, t = c :: u ∧ within (firsts 80 (.rule r)) c.toNat := by
  obtain ⟨t', ht, hd⟩ := h.derives
  obtain rfl := List.append_cancel_right ht
  cases t with
  | nil => exact absurd rfl (hd.not_nullable dsdl_guarded.nullable hn)
  | cons c u => exact ⟨c, u, rfl, firsts_sound hd 80 c u rfl⟩

/-! ### Matching step by step -/

theorem okSeq {a b : Peg Rule} {s r r' ps qs} (h : Ok dsdl whole a s ps r) (h' : Ok dsdl whole b r qs r') : Ok dsdl whole (.seq a b) s (ps ++ qs) r' :=
  ok_seq.2 ⟨_, _, _, h, h', rfl⟩

theorem okSeq0 {a b : Peg Rule} {s r r' qs} (h : Ok dsdl whole a s [] r) (h' : Ok dsdl whole b r qs r') : Ok dsdl whole (.seq a b) s qs r' := okSeq h h'

theorem okSeq1 {a b : Peg Rule} {s r r' p qs} (h : Ok dsdl whole a s [p] r) (h' : Ok dsdl whole b r qs r') : Ok dsdl whole (.seq a b) s (p :: qs) r' := okSeq h h'

theorem okLeft {a b : Peg Rule} {s ps r} (h : Ok dsdl whole a s ps r) : Ok dsdl whole (.choice a b) s ps r := ok_choice.2 (.inl h)

theorem okRight {a b : Peg Rule} {s ps r} (h : No dsdl whole a s) (h' : Ok dsdl whole b s ps r) : Ok dsdl whole (.choice a b) s ps r := ok_choice.2 (.inr ⟨h, h'⟩)

theorem okNone {a : Peg Rule} {s} (h : No dsdl whole a s) : Ok dsdl whole (.opt a) s [] s := ok_opt.2 (.inr ⟨h, rfl, rfl⟩)

theorem okSome {a : Peg Rule} {s ps r} (h : Ok dsdl whole a s ps r) : Ok dsdl whole (.opt a) s ps r := ok_opt.2 (.inl h)

theorem okNil {a : Peg Rule} {s} (h : No dsdl whole a s) : Ok dsdl whole (.star a) s [] s := ok_star.2 (.inl ⟨h, rfl, rfl⟩)

theorem okCons {a : Peg Rule} {s r r' ps qs} (h : Ok dsdl whole a s ps r) (h' : Ok dsdl whole (.star a) r qs r') : Ok dsdl whole (.star a) s (ps ++ qs) r' :=
  ok_star.2 (.inr ⟨_, _, _, h, h', rfl⟩)

theorem okLit {l : String} {r : List Char} : Ok dsdl whole (.lit l) (l.toList ++ r) [] r := ok_lit.2 ⟨rfl, rfl⟩

theorem okChar {l : String} {c : Char} {r : List Char} (h : l.toList = [c] := by rfl) : Ok dsdl whole (.lit l) (c :: r) [] r := ok_lit.2 ⟨rfl, by rw [h]; rfl⟩

theorem noChar {l : String} {c : Char} {s : List Char} (hl : l.toList = [c]) (h : ∀ d u, s = d :: u → d ≠ c) : No dsdl whole (.lit l) s := by
  rw [no_lit, hl]
  rintro ⟨u, rfl⟩
  exact h c u rfl rfl

theorem noSeq {a b : Peg Rule} {s} (h : No dsdl whole a s) : No dsdl whole (.seq a b) s := no_seq.2 (.inl h)

theorem noSeq' {a b : Peg Rule} {s ps r} (h : Ok dsdl whole a s ps r) (h' : No dsdl whole b r) : No dsdl whole (.seq a b) s := no_seq.2 (.inr ⟨_, _, h, h'⟩)

theorem noChoice {a b : Peg Rule} {s} (h : No dsdl whole a s) (h' : No dsdl whole b s) : No dsdl whole (.choice a b) s := no_choice.2 ⟨h, h'⟩

theorem noRule {r : Rule} {s} (h : No dsdl whole r.body s) : No dsdl whole (.rule r) s := no_rule.2 h

theorem okRule {r : Rule} {t rest : List Char} {ps} (h : Ok dsdl whole r.body (t ++ rest) ps rest) (hr : r.silent = false := by rfl) :
    Ok dsdl whole (.rule r) (t ++ rest) [.node r t ps] rest := ok_normal (g := dsdl) hr h

theorem okSilent {r : Rule} {s rest : List Char} {ps} (h : Ok dsdl whole r.body s ps rest) (hr : r.silent = true := by rfl) : Ok dsdl whole (.rule r) s ps rest :=
  (ok_silent (g := dsdl) hr).2 h

/-! ### Single characters -/

/-- An expression that matches one character, one of those with `P`. -/
structure Class (whole : List Char) (e : Peg Rule) (P : Char → Prop) : Prop where
  ok : ∀ c s, P c → Ok dsdl whole e (c :: s) [] s
  no : ∀ s, (∀ c u, s = c :: u → ¬ P c) → No dsdl whole e s

theorem class_range {a b : Char} : Class whole (.range a b) fun c => a ≤ c ∧ c ≤ b where
  ok c _ h := ok_range.2 ⟨rfl, c, h.1, h.2, rfl⟩
  no _ h := no_range.2 h

theorem class_char {l : String} {c : Char} (hl : l.toList = [c] := by rfl) : Class whole (.lit l) (· = c) where
  ok d s h := by subst h; exact okChar hl
  no _ h := noChar hl h

theorem class_choice {a b : Peg Rule} {P Q : Char → Prop} (ha : Class whole a P) (hb : Class whole b Q) : Class whole (.choice a b) fun c => P c ∨ Q c where
  ok c s h := by
    by_cases hp : P c
    · exact okLeft (ha.ok c s hp)
    · exact okRight (ha.no _ (by intro d u hd; cases hd; exact hp)) (hb.ok c s (h.resolve_left hp))
  no s h := noChoice (ha.no s fun c u hc hp => h c u hc (.inl hp)) (hb.no s fun c u hc hp => h c u hc (.inr hp))

theorem Class.star {e : Peg Rule} {P : Char → Prop} (h : Class whole e P) {t rest : List Char} (ht : ∀ c ∈ t, P c) (hr : ∀ c u, rest = c :: u → ¬ P c) :
    Ok dsdl whole (.star e) (t ++ rest) [] rest := by
  induction t with
  | nil => exact okNil (h.no _ hr)
  | cons c t ih => exact okCons (ps := []) (h.ok c _ (ht c (by simp))) (ih fun c hc => ht c (by simp [hc]))

/-- Digits that may each have a `_` before them. -/
theorem Class.spaced {D : Peg Rule} {P : Char → Prop} (h : Class whole D P) {t rest : List Char} (hs : Separated t) (ht : ∀ c ∈ t, c = '_' ∨ P c)
    (hr : ∀ c u, rest = c :: u → ¬ P c ∧ c ≠ '_') : Ok dsdl whole (many (.seq (opt (.lit "_")) D)) (t ++ rest) [] rest := by
  induction hs with
  | nil =>
    refine okNil (noSeq' (okNone (noChar rfl fun d u hd => (hr d u hd).2)) (h.no _ fun c u hc => (hr c u hc).1))
  | @digit c t hc _ ih =>
    refine okCons (ps := []) (okSeq0 (okNone (noChar rfl ?_)) (h.ok c _ ((ht c (by simp)).resolve_left hc))) (ih fun c hc => ht c (by simp [hc]))
    intro d u hd; cases hd; exact hc
  | @skip c t hc _ ih =>
    exact okCons (ps := []) (okSeq0 (okSome (okChar rfl)) (h.ok c _ ((ht c (by simp)).resolve_left hc))) (ih fun c hc => ht c (by simp [hc]))

/-- The same with one of them at least. -/
theorem Class.spaced1 {D : Peg Rule} {P : Char → Prop} (h : Class whole D P) {t rest : List Char} (hs : Separated t) (hne : t ≠ []) (ht : ∀ c ∈ t, c = '_' ∨ P c)
    (hr : ∀ c u, rest = c :: u → ¬ P c ∧ c ≠ '_') : Ok dsdl whole (some' (.seq (opt (.lit "_")) D)) (t ++ rest) [] rest := by
  cases hs with
  | nil => exact absurd rfl hne
  | @digit c t hc hs =>
    refine okSeq0 (okSeq0 (okNone (noChar rfl ?_)) (h.ok c _ ((ht c (by simp)).resolve_left hc))) (h.spaced hs (fun c hc => ht c (by simp [hc])) hr)
    intro d u hd; cases hd; exact hc
  | @skip c t hc hs =>
    exact okSeq0 (okSeq0 (okSome (okChar rfl)) (h.ok c _ ((ht c (by simp)).resolve_left hc))) (h.spaced hs (fun c hc => ht c (by simp [hc])) hr)

/-! ### Digits -/

theorem digits_chars {base : Nat} {t : List Char} {n : Nat} (h : Digits base t n) : ∀ c ∈ t, c = '_' ∨ ∃ d, DigitChar c d ∧ d < base := by
  induction h with
  | nil => nofun
  | digit _ hc hd ih =>
    intro x hx
    rcases List.mem_append.1 hx with hx | hx
    · exact ih x hx
    · rw [List.mem_singleton] at hx; subst hx; exact .inr ⟨_, hc, hd⟩
  | skip _ ih =>
    intro x hx
    rcases List.mem_append.1 hx with hx | hx
    · exact ih x hx
    · rw [List.mem_singleton] at hx; exact .inl hx

theorem decimal_char {c : Char} : (∃ d, DigitChar c d ∧ d < 10) ↔ '0' ≤ c ∧ c ≤ '9' := by
  have h0 : '0'.toNat = 48 := rfl
  have h9 : '9'.toNat = 57 := rfl
  have ha : 'a'.toNat = 97 := rfl
  have hA : 'A'.toNat = 65 := rfl
  simp only [char_le, DigitChar, h0, h9, ha, hA]
  constructor
  · rintro ⟨d, h, h'⟩; omega
  · intro h; exact ⟨c.toNat - 48, by omega, by omega⟩

theorem group_chars {t : List Char} {n : Nat} (h : Digits 10 t n) : ∀ c ∈ t, c = '_' ∨ ('0' ≤ c ∧ c ≤ '9') :=
  fun c hc => (digits_chars h c hc).imp id decimal_char.1

/-- No further digit follows. -/
def NoDigit (rest : List Char) : Prop := ∀ c u, rest = c :: u → ¬ ('0' ≤ c ∧ c ≤ '9') ∧ c ≠ '_'

/-- The first character of digits. -/
theorem Group.cons {t : List Char} {n : Nat} (h : Group t n) : ∃ c u, t = c :: u ∧ ('0' ≤ c ∧ c ≤ '9') ∧ Separated u := by
  obtain ⟨⟨h1, h2, h3⟩, h4⟩ := h
  cases h2 with
  | nil => exact absurd rfl h3
  | @digit c t hc h2 => exact ⟨c, t, rfl, (group_chars h1 c (by simp)).resolve_left hc, h2⟩
  | skip => simp at h4

theorem digits_ok {t rest : List Char} {n : Nat} (h : Group t n) (hr : NoDigit rest) :
    Ok dsdl whole (.rule .literal_real_digits) (t ++ rest) [.node .literal_real_digits t []] rest := by
  refine okRule ?_
  obtain ⟨c, u, rfl, hc, hs⟩ := h.cons
  refine okSeq0 (class_range.ok c _ hc) (class_range.spaced hs ?_ hr)
  exact fun d hd => group_chars h.1.1 d (by simp [hd])

/-! ### White space -/

/-- A text without the white space at its start. -/
def trim (s : List Char) : List Char := s.dropWhile fun c => c = ' ' ∨ c = '\t'

theorem class_blank : Class whole (.choice (.lit " ") (.lit "\t")) fun c => c = ' ' ∨ c = '\t' := class_choice class_char class_char

theorem trim_append {x s : List Char} (hx : Blank x) : trim (x ++ s) = trim s := by
  induction x with
  | nil => rfl
  | cons c x ih =>
    have hc := hx c (by simp)
    rw [List.cons_append, trim, List.dropWhile_cons_of_pos (by simpa using hc)]
    exact ih fun c hc => hx c (by simp [hc])

theorem trim_split (s : List Char) : ∃ x, Blank x ∧ s = x ++ trim s := by
  refine ⟨s.takeWhile fun c => c = ' ' ∨ c = '\t', ?_, (List.takeWhile_append_dropWhile).symm⟩
  intro c hc
  have := List.all_eq_true.1 (List.all_takeWhile (p := fun c => decide (c = ' ' ∨ c = '\t')) (l := s)) c hc
  simpa using this

theorem trim_head {s : List Char} : ∀ c u, trim s = c :: u → ¬ (c = ' ' ∨ c = '\t') := by
  intro c u h
  have := List.head?_dropWhile_not (fun c => decide (c = ' ' ∨ c = '\t')) s
  rw [trim] at h
  rw [h] at this
  simpa using this

theorem trim_cons {c : Char} {u : List Char} (h : c ≠ ' ' ∧ c ≠ '\t') : trim (c :: u) = c :: u := by
  rw [trim, List.dropWhile_cons_of_neg (by simpa using h)]

theorem trim_self {s : List Char} (h : ∀ c u, s = c :: u → c ≠ ' ' ∧ c ≠ '\t') : trim s = s := by
  cases s with
  | nil => rfl
  | cons c u => exact trim_cons (h c u rfl)

theorem ws_ok {x s : List Char} (hx : Blanks x) : Ok dsdl whole (.rule .ws) (x ++ s) [] (trim s) := by
  refine okSilent ?_
  obtain ⟨y, hy, hs⟩ := trim_split s
  obtain ⟨hx, hne⟩ := hx
  cases x with
  | nil => exact absurd rfl hne
  | cons c x =>
    refine okSeq0 (class_blank.ok c _ (hx c (by simp))) ?_
    rw [show x.append s = (x ++ y) ++ trim s by rw [List.append_assoc, ← hs]; rfl]
    refine class_blank.star ?_ trim_head
    intro d hd
    rcases List.mem_append.1 hd with hd | hd
    exacts [hx d (by simp [hd]), hy d hd]

theorem ws_no {s : List Char} (h : ∀ c u, s = c :: u → c ≠ ' ' ∧ c ≠ '\t') : No dsdl whole (.rule .ws) s := by
  refine noRule (noSeq (class_blank.no s fun c u hc => ?_))
  have := h c u hc
  tauto

theorem ows_trim {s : List Char} : Ok dsdl whole ows s [] (trim s) := by
  obtain ⟨x, hx, hs⟩ := trim_split s
  by_cases hne : x = []
  · subst hne
    have hs' : trim s = s := hs.symm
    rw [hs']
    refine okNone (ws_no fun c u hc => ?_)
    have := trim_head c u (hs'.trans hc)
    tauto
  · have := ws_ok (whole := whole) (s := trim s) ⟨hx, hne⟩
    rw [← hs] at this
    rw [trim_self (s := trim s) (fun c u hc => by have := trim_head c u hc; tauto)] at this
    exact okSome this

theorem ows_ok {x s : List Char} (hx : Blank x) (hs : ∀ c u, s = c :: u → c ≠ ' ' ∧ c ≠ '\t') : Ok dsdl whole ows (x ++ s) [] s := by
  have := ows_trim (whole := whole) (s := x ++ s)
  rwa [trim_append hx, trim_self hs] at this

/-! ### Names -/

/-- No name or number goes on. -/
def NoName (rest : List Char) : Prop := ∀ c u, rest = c :: u → ¬ NameChar c

theorem NoName.digit {rest : List Char} (h : NoName rest) : NoDigit rest := by
  intro c u hc
  have := h c u hc
  exact ⟨fun hd => this (.inr hd), fun hd => this (.inl (.inr (.inr hd)))⟩

theorem class_start : Class whole (.choice (.range 'a' 'z') (.choice (.range 'A' 'Z') (.lit "_"))) NameStart :=
  class_choice class_range (class_choice class_range class_char)

theorem class_name : Class whole (.choice (.range 'a' 'z') (.choice (.range 'A' 'Z') (.choice (.range '0' '9') (.lit "_")))) NameChar := by
  have h : Class whole (.choice (.range 'a' 'z') (.choice (.range 'A' 'Z') (.choice (.range '0' '9') (.lit "_")))) _ :=
    class_choice class_range (class_choice class_range (class_choice class_range class_char))
  refine ⟨fun c s hc => h.ok c s ?_, fun s hs => h.no s fun c u hc hh => hs c u hc ?_⟩
  · unfold NameChar NameStart at hc; tauto
  · unfold NameChar NameStart; tauto

theorem name_ok {n rest : List Char} (h : Name n) (hr : NoName rest) : Ok dsdl whole (.rule .identifier) (n ++ rest) [.node .identifier n []] rest := by
  refine okRule ?_
  obtain ⟨c, cs, rfl, h1, h2⟩ := h
  exact okSeq0 (class_start.ok c _ h1) (class_name.star h2 hr)

theorem name_no {s : List Char} (h : ∀ c u, s = c :: u → ¬ NameStart c) : No dsdl whole (.rule .identifier) s := noRule (noSeq (class_start.no s h))

theorem Name.cons {n : List Char} (h : Name n) : ∃ c cs, n = c :: cs ∧ NameStart c := by
  obtain ⟨c, cs, h1, h2, -⟩ := h
  exact ⟨c, cs, h1, h2⟩

theorem start_not_blank {c : Char} (h : NameChar c) : c ≠ ' ' ∧ c ≠ '\t' := by
  constructor <;> (rintro rfl; revert h; unfold NameChar NameStart; decide)

/-! ### Numbers -/

theorem decimal_digit_starts {c : Char} {u : List Char} (h : '0' ≤ c ∧ c ≤ '9') : Starts [(48, 57)] (c :: u) := by
  refine starts_cons ⟨_, List.mem_singleton.2 rfl, ?_⟩
  have h0 : '0'.toNat = 48 := rfl
  have h9 : '9'.toNat = 57 := rfl
  simpa only [char_le, h0, h9] using h

theorem Group.starts {t rest : List Char} {n : Nat} (h : Group t n) : Starts [(48, 57)] (t ++ rest) := by
  obtain ⟨c, u, rfl, hc, -⟩ := h.cons
  exact decimal_digit_starts hc

theorem zeros_of_digits {t : List Char} {n : Nat} (h : Digits 10 t n) (hn : n = 0) : ∀ c ∈ t, c = '_' ∨ c = '0' := by
  induction h with
  | nil => nofun
  | @digit t n c d _ hc hd ih =>
    intro x hx
    rcases List.mem_append.1 hx with hx | hx
    · exact ih (by omega) x hx
    · rw [List.mem_singleton] at hx
      subst hx
      right
      obtain rfl : d = 0 := by omega
      rcases hc with ⟨-, hc⟩ | ⟨hc, -⟩
      · exact char_eq.2 hc
      · omega
  | skip _ ih =>
    intro x hx
    rcases List.mem_append.1 hx with hx | hx
    · exact ih hn x hx
    · rw [List.mem_singleton] at hx; exact .inl hx

/-- Decimal integers. -/
theorem decimal_ok {t rest : List Char} {n : Nat} (h : Group t n) (h0 : t.head? = some '0' → n = 0) (hr : NoDigit rest) :
    Ok dsdl whole (.rule .literal_integer_decimal) (t ++ rest) [.node .literal_integer_decimal t []] rest := by
  refine okRule ?_
  obtain ⟨c, u, rfl, hc, hs⟩ := h.cons
  by_cases hz : c = '0'
  · subst hz
    have hall := zeros_of_digits h.1.1 (h0 rfl)
    have hno : ∀ c u, rest = c :: u → ¬ c = '0' := by
      rintro c u hcu rfl
      exact (hr _ u hcu).1 (by decide)
    refine okLeft (okSeq0 (okSeq0 (okChar rfl) ((class_char (c := '0')).spaced hs (fun d hd => hall d (by simp [hd])) fun c u hcu => ⟨hno c u hcu, (hr c u hcu).2⟩)) ?_)
    exact okNil (noSeq (noChar rfl hno))
  · refine okRight (noSeq (noSeq (noChar rfl ?_))) (okSeq0 (class_range.ok c _ ?_) (class_range.spaced hs (fun d hd => group_chars h.1.1 d (by simp [hd])) hr))
    · intro d u hd; cases hd; exact hz
    · refine ⟨?_, hc.2⟩
      have h1 := hc.1
      have e0 : '0'.toNat = 48 := rfl
      have e1 : '1'.toNat = 49 := rfl
      rw [char_le, e0] at h1
      rw [char_le, e1]
      rw [char_eq, e0] at hz
      omega

theorem fraction_no {s : List Char} (h : ∀ c u, s = '.' :: c :: u → ¬ ('0' ≤ c ∧ c ≤ '9')) : No dsdl whole (.rule .literal_real_fraction) s := by
  refine noRule ?_
  cases s with
  | nil => exact noSeq (noChar (c := '.') rfl nofun)
  | cons d s =>
    by_cases hd : d = '.'
    · subst hd
      refine noSeq' (okChar rfl) (noRule (noSeq (class_range.no s ?_)))
      rintro c u rfl
      exact h c u rfl
    · refine noSeq (noChar (c := '.') rfl ?_)
      intro e u he; cases he; exact hd

theorem exponent_no {s : List Char} (h : ∀ c u, s = c :: u → c ≠ 'e' ∧ c ≠ 'E') : No dsdl whole (.rule .literal_real_exponent) s :=
  noRule (noSeq (noChoice (noChar rfl fun c u hc => (h c u hc).1) (noChar rfl fun c u hc => (h c u hc).2)))

theorem point_no {t rest : List Char} {n : Nat} (h : Group t n) (hr : NoDigit rest) (hp : rest.head? ≠ some '.') :
    No dsdl whole (.rule .literal_real_point_notation) (t ++ rest) := by
  have hp' : ∀ c u, rest = c :: u → c ≠ '.' := by
    rintro c u rfl rfl
    exact hp rfl
  refine noRule (noChoice (noSeq' (okSome (digits_ok h hr)) (fraction_no ?_)) (noSeq' (digits_ok h hr) (noChar rfl hp')))
  rintro c u rfl
  exact absurd rfl hp

/-- Digits that no point or exponent follows are no real number. -/
theorem real_none {t rest : List Char} {n : Nat} (h : Group t n) (hr : NoDigit rest) (hp : rest.head? ≠ some '.') (he : ∀ c u, rest = c :: u → c ≠ 'e' ∧ c ≠ 'E') :
    No dsdl whole (.rule .literal_real) (t ++ rest) :=
  noRule (noChoice (noRule (noSeq' (okRight (point_no h hr hp) (digits_ok h hr)) (exponent_no he))) (point_no h hr hp))

theorem bigInt_of {t : List Char} {n : Nat} (h : Group t n) : Outcome.ofOption (parseBigInt t) = .ok n := by
  rw [parseBigInt_some.2 ⟨h.1.2.2, h.2, h.1.1⟩]
  rfl

/-- Numbers with a point. -/
theorem point_ok {t rest : List Char} {q : ℚ} (h : Mantissa List.length t q) (hdot : '.' ∈ t) (h0 : t.head? ≠ some '.') (hr : NoDigit rest) :
    ∃ ps, Ok dsdl whole (.rule .literal_real_point_notation) (t ++ rest) [.node .literal_real_point_notation t ps] rest ∧
      parseRealPointNotation (.node .literal_real_point_notation t ps) = .ok q := by
  have nodot : ∀ {t n}, Group t n → '.' ∉ t := by
    intro t n h hc
    rcases group_chars h.1.1 _ hc with h | h <;> revert h <;> decide
  have nd : ∀ {r}, NoDigit ('.' :: r) := by
    intro r c u hc; cases hc; decide
  cases h with
  | whole h => exact absurd hdot (nodot h)
  | @point t n h =>
    refine ⟨[.node .literal_real_digits t []], okRule ?_, ?_⟩
    · rw [List.append_assoc]
      refine okRight (noSeq' (okSome (digits_ok h nd)) (fraction_no ?_)) (okSeq1 (digits_ok h nd) (okChar rfl))
      intro c u hc
      exact (hr c u (List.cons.inj hc).2).1
    · simp only [parseRealPointNotation, Pair.inner, Pair.text, bigInt_of h, bind_ok']
  | @fraction t n f m h h' =>
    refine ⟨[.node .literal_real_digits t [], .node .literal_real_fraction ('.' :: f) [.node .literal_real_digits f []]], okRule ?_, ?_⟩
    · rw [List.append_assoc]
      have hf : Ok dsdl whole (.rule .literal_real_fraction) ('.' :: f ++ rest) [.node .literal_real_fraction ('.' :: f) [.node .literal_real_digits f []]] rest :=
        okRule (okSeq0 (okChar rfl) (digits_ok h' hr))
      exact okLeft (okSeq1 (okSome (digits_ok h nd)) hf)
    · simp only [parseRealPointNotation, Pair.inner, Pair.text, first, parseFraction, bigInt_of h, bigInt_of h', bind_ok']
  | onlyFraction => exact absurd rfl h0

theorem sign_ok {x s d : List Char} {c : Char} {n : Nat} {rest : List Char} (hc : c = 'e' ∨ c = 'E') (hs : s = [] ∨ s = ['+'] ∨ s = ['-']) (hd : Group d n)
    (hr : NoDigit rest) (hx : x = c :: (s ++ d)) :
    Ok dsdl whole (.rule .literal_real_exponent) (x ++ rest) [.node .literal_real_exponent x [.node .literal_real_digits d []]] rest := by
  subst hx
  refine okRule (okSeq0 ((class_choice class_char class_char).ok c _ hc) ?_)
  rw [show (s ++ d).append rest = s ++ (d ++ rest) by simp]
  refine okSeq0 (r := d ++ rest) ?_ (digits_ok hd hr)
  rcases hs with rfl | rfl | rfl
  · refine okNone ((class_choice class_char class_char).no _ ?_)
    obtain ⟨e, u, rfl, he, -⟩ := hd.cons
    intro e' u' he'
    cases he'
    rintro (rfl | rfl) <;> revert he <;> decide
  · exact okSome ((class_choice class_char class_char).ok '+' _ (.inl rfl))
  · exact okSome ((class_choice class_char class_char).ok '-' _ (.inr rfl))

/-- The value of a number with an exponent. -/
theorem exponent_value {t x s d : List Char} {u : List (Pair Rule)} {b : ℚ} {c : Char} {n : Nat} {before : Pair Rule}
    (hb : before.rule = .literal_real_point_notation ∧ parseRealPointNotation before = .ok b ∨
      before.rule = .literal_real_digits ∧ ∃ m : Nat, parseDigits 10 before.text 0 = .ok m ∧ b = m)
    (hs : s = [] ∨ s = ['+'] ∨ s = ['-']) (hd : Group d n) (hn : n < 2 ^ 128) (hx : x = c :: (s ++ d)) :
    parseRealExponentNotation (.node .literal_real_exponent_notation t [before, .node .literal_real_exponent x [.node .literal_real_digits d u]]) =
      .ok (b * (10 : ℚ) ^ (if s = ['-'] then -(n : ℤ) else (n : ℤ))) := by
  have step : ∀ sign, x[1]? = some sign → ((sign = '-') ↔ s = ['-']) →
      parseRealExponentNotation (.node .literal_real_exponent_notation t [before, .node .literal_real_exponent x [.node .literal_real_digits d u]]) =
      .ok (b * (10 : ℚ) ^ (if s = ['-'] then -(n : ℤ) else (n : ℤ))) := by
    intro sign h1 h2
    rcases hb with ⟨hr, hb⟩ | ⟨hr, m, hb, rfl⟩
    · simp only [parseRealExponentNotation, Pair.inner, hr, hb, bind_ok', Pair.text, h1, first, parseDigits_ok.2 hd.1.1, powerOfTen, if_pos hn, h2]
    · cases before with
      | node r v ps =>
        obtain rfl : r = .literal_real_digits := hr
        replace hb : parseDigits 10 v 0 = .ok m := hb
        simp only [parseRealExponentNotation, Pair.inner, Pair.rule, hb, bind_ok', Pair.text, h1, first, parseDigits_ok.2 hd.1.1, powerOfTen, if_pos hn, h2]
  rcases hs with rfl | rfl | rfl
  · obtain ⟨e, v, rfl, he, -⟩ := hd.cons
    refine step e (by rw [hx]; rfl) ⟨?_, by simp⟩
    rintro rfl
    revert he; decide
  · exact step '+' (by rw [hx]; rfl) (by decide)
  · exact step '-' (by rw [hx]; rfl) (by decide)

/-- Numbers with an exponent. -/
theorem exponent_ok {t x s d rest : List Char} {b : ℚ} {c : Char} {n : Nat} (hm : Mantissa List.length t b) (h0 : t.head? ≠ some '.') (hc : c = 'e' ∨ c = 'E')
    (hs : s = [] ∨ s = ['+'] ∨ s = ['-']) (hd : Group d n) (hn : n < 2 ^ 128) (hr : NoDigit rest) (hx : x = c :: (s ++ d)) :
    ∃ v, Ok dsdl whole (.rule .literal_real) (t ++ x ++ rest) [.node .literal_real (t ++ x) [v]] rest ∧
      parseRealLiteral (.node .literal_real (t ++ x) [v]) = .ok (b * (10 : ℚ) ^ (if s = ['-'] then -(n : ℤ) else (n : ℤ))) := by
  have hnd : NoDigit (x ++ rest) := by
    intro e u he
    rw [hx] at he
    cases he
    rcases hc with rfl | rfl <;> decide
  have hnp : (x ++ rest).head? ≠ some '.' := by
    rw [hx]
    rcases hc with rfl | rfl <;> simp
  have build : ∀ before, Ok dsdl whole (.choice (.rule .literal_real_point_notation) (.rule .literal_real_digits)) (t ++ (x ++ rest)) [before] (x ++ rest) →
      (before.rule = .literal_real_point_notation ∧ parseRealPointNotation before = .ok b ∨
        before.rule = .literal_real_digits ∧ ∃ m : Nat, parseDigits 10 before.text 0 = .ok m ∧ b = m) →
      ∃ v, Ok dsdl whole (.rule .literal_real) (t ++ x ++ rest) [.node .literal_real (t ++ x) [v]] rest ∧
        parseRealLiteral (.node .literal_real (t ++ x) [v]) = .ok (b * (10 : ℚ) ^ (if s = ['-'] then -(n : ℤ) else (n : ℤ))) := by
    intro before h1 h2
    refine ⟨.node .literal_real_exponent_notation (t ++ x) [before, .node .literal_real_exponent x [.node .literal_real_digits d []]],
      okRule (okLeft (okRule ?_)), ?_⟩
    · rw [List.append_assoc]
      exact okSeq1 h1 (sign_ok hc hs hd hr hx)
    · simp only [parseRealLiteral, Pair.inner, first, bind_ok', Pair.rule]
      exact exponent_value h2 hs hd hn hx
  by_cases hdot : '.' ∈ t
  · obtain ⟨ps, h1, h2⟩ := point_ok (whole := whole) hm hdot h0 hnd
    exact build _ (okLeft h1) (.inl ⟨rfl, h2⟩)
  · cases hm with
    | whole h => exact build _ (okRight (point_no h hnd hnp) (digits_ok h hnd)) (.inr ⟨rfl, _, parseDigits_ok.2 h.1.1, rfl⟩)
    | point => simp at hdot
    | fraction => simp at hdot
    | onlyFraction => simp at hdot

theorem real_literal {t rest : List Char} {v : Pair Rule} {q : ℚ} (hstart : Starts [(48, 57)] (t ++ rest))
    (h : Ok dsdl whole (.rule .literal_real) (t ++ rest) [.node .literal_real t [v]] rest) (hv : parseRealLiteral (.node .literal_real t [v]) = .ok q) :
    ∃ c, Ok dsdl whole (.rule .literal) (t ++ rest) [.node .literal t [c]] rest ∧ parseLiteral c = .ok (.number q) := by
  refine ⟨_, okRule (okRight (no_starts hstart rfl (by decide +kernel)) (okLeft h)), ?_⟩
  rw [parseLiteral.eq_def]
  simp only [hv, bind_ok']

theorem integer_literal {t rest : List Char} {v : Pair Rule} {n : Nat} (hstart : Starts [(48, 57)] (t ++ rest)) (hreal : No dsdl whole (.rule .literal_real) (t ++ rest))
    (h : Ok dsdl whole (.rule .literal_integer) (t ++ rest) [.node .literal_integer t [v]] rest) (hv : parseIntegerLiteral (.node .literal_integer t [v]) = .ok n) :
    ∃ c, Ok dsdl whole (.rule .literal) (t ++ rest) [.node .literal t [c]] rest ∧ parseLiteral c = .ok (.number n) := by
  refine ⟨_, okRule (okRight (no_starts hstart rfl (by decide +kernel)) (okRight hreal (okLeft h))), ?_⟩
  rw [parseLiteral.eq_def]
  simp only [hv, bind_ok']

theorem base_chars {base : Nat} {t : List Char} {n : Nat} {P : Char → Prop} (h : Spaced base t n) (hP : ∀ c d, DigitChar c d → d < base → P c) :
    ∀ c ∈ t, c = '_' ∨ P c := fun c hc => (digits_chars h.1 c hc).imp id fun ⟨d, h1, h2⟩ => hP c d h1 h2

theorem not_name {rest : List Char} {P : Char → Prop} (h : NoName rest) (hP : ∀ c, P c → NameChar c) : ∀ c u, rest = c :: u → ¬ P c ∧ c ≠ '_' :=
  fun c u hc => ⟨fun hp => h c u hc (hP c hp), (h.digit c u hc).2⟩

/-- Every number that is written as it is accepted is matched as a whole, and its value is read. -/
theorem number_ok {t rest : List Char} {q : ℚ} (h : accepted.number t q) (hr : NoName rest) (hp : (∃ n, Group t n) → rest.head? ≠ some '.') :
    ∃ c, Ok dsdl whole (.rule .literal) (t ++ rest) [.node .literal t [c]] rest ∧ parseLiteral c = .ok (.number q) := by
  obtain ⟨h, h0⟩ := h
  have zero : Group ['0'] 0 := ⟨⟨Digits.digit (d := 0) .nil (.inl ⟨by decide, rfl⟩) (by decide), .digit (by decide) .nil, by simp⟩, by simp⟩
  have hnd := hr.digit
  have noE : ∀ c u, rest = c :: u → c ≠ 'e' ∧ c ≠ 'E' := by
    intro c u hc
    constructor <;> (rintro rfl; exact hr _ u hc (by unfold NameChar NameStart; decide))
  have pre : ∀ {x : Char} {v : List Char}, x ≠ '.' ∧ x ≠ 'e' ∧ x ≠ 'E' ∧ ¬ ('0' ≤ x ∧ x ≤ '9') ∧ x ≠ '_' → No dsdl whole (.rule .literal_real) ('0' :: x :: v) := by
    intro x v hx
    refine real_none (t := ['0']) (rest := x :: v) zero ?_ ?_ ?_
    · intro c u hc; cases hc; exact hx.2.2.2
    · simpa using hx.1
    · intro c u hc; cases hc; exact ⟨hx.2.1, hx.2.2.1⟩
  have mant : ∀ {t b}, Mantissa List.length t b → t.head? ≠ some '.' → ∀ r, Starts [(48, 57)] (t ++ r) := by
    intro t b hm h0 r
    cases hm with
    | whole h => exact h.starts
    | point h => rw [List.append_assoc]; exact h.starts
    | fraction h => rw [List.append_assoc]; exact h.starts
    | onlyFraction => exact absurd rfl h0
  have mne : ∀ {t b}, Mantissa List.length t b → t ≠ [] := by
    intro t b hm
    cases hm with
    | whole h => exact h.1.2.2
    | point h => simp
    | fraction h => simp
    | onlyFraction => simp
  have mhead : ∀ {t b x}, Mantissa List.length t b → (t ++ x).head? ≠ some '.' → t.head? ≠ some '.' := by
    intro t b x hm hh
    have := mne hm
    cases t with
    | nil => exact absurd rfl this
    | cons c t => exact hh
  cases h with
  | @binary x t n hx hd =>
    refine integer_literal (decimal_digit_starts (by decide)) (pre (by rcases hx with rfl | rfl <;> decide)) (v := .node .literal_integer_binary ('0' :: x :: t) [])
      (okRule (okLeft (okRule ?_))) ?_
    · have hcl : Class whole (.choice (.lit "0") (.lit "1")) fun c => c = '0' ∨ c = '1' := class_choice class_char class_char
      refine okSeq0 (okChar rfl) (okSeq0 ((class_choice class_char class_char).ok x _ hx) (hcl.spaced1 hd.2.1 hd.2.2 (base_chars hd ?_) (not_name hr ?_)))
      · intro c d h1 h2
        rcases h1 with ⟨-, h1⟩ | ⟨h1, -⟩
        · have e0 : '0'.toNat = 48 := rfl
          have e1 : '1'.toNat = 49 := rfl
          rw [char_eq, char_eq]
          omega
        · omega
      · rintro c (rfl | rfl) <;> (unfold NameChar NameStart; decide)
    · simp only [parseIntegerLiteral, Pair.inner, first, bind_ok', Pair.rule, Pair.text, List.drop_succ_cons, List.drop_zero]
      exact parseDigits_ok.2 hd.1
  | @octal x t n hx hd =>
    refine integer_literal (decimal_digit_starts (by decide)) (pre (by rcases hx with rfl | rfl <;> decide)) (v := .node .literal_integer_octal ('0' :: x :: t) [])
      (okRule (okRight (noRule (noSeq' (okChar rfl) (noSeq ((class_choice class_char class_char).no _ ?_)))) (okLeft (okRule ?_)))) ?_
    · intro c u hc; cases hc; rcases hx with rfl | rfl <;> decide
    · refine okSeq0 (okChar rfl) (okSeq0 ((class_choice class_char class_char).ok x _ hx) (class_range.spaced1 hd.2.1 hd.2.2 (base_chars hd ?_) (not_name hr ?_)))
      · intro c d h1 h2
        rcases h1 with ⟨-, h1⟩ | ⟨h1, -⟩
        · have e0 : '0'.toNat = 48 := rfl
          have e1 : '7'.toNat = 55 := rfl
          rw [char_le, char_le]
          omega
        · omega
      · intro c hc
        exact .inr ⟨hc.1, Char.le_trans hc.2 (by decide)⟩
    · simp only [parseIntegerLiteral, Pair.inner, first, bind_ok', Pair.rule, Pair.text, List.drop_succ_cons, List.drop_zero]
      exact parseDigits_ok.2 hd.1
  | @hexadecimal x t n hx hd =>
    refine integer_literal (decimal_digit_starts (by decide)) (pre (by rcases hx with rfl | rfl <;> decide)) (v := .node .literal_integer_hexadecimal ('0' :: x :: t) [])
      (okRule (okRight (noRule (noSeq' (okChar rfl) (noSeq ((class_choice class_char class_char).no _ ?_))))
        (okRight (noRule (noSeq' (okChar rfl) (noSeq ((class_choice class_char class_char).no _ ?_)))) (okLeft (okRule ?_))))) ?_
    · intro c u hc; cases hc; rcases hx with rfl | rfl <;> decide
    · intro c u hc; cases hc; rcases hx with rfl | rfl <;> decide
    · have hcl : Class whole (.choice (.range '0' '9') (.choice (.range 'a' 'f') (.range 'A' 'F'))) _ := class_choice class_range (class_choice class_range class_range)
      refine okSeq0 (okChar rfl) (okSeq0 ((class_choice class_char class_char).ok x _ hx) (hcl.spaced1 hd.2.1 hd.2.2 (base_chars hd ?_) (not_name hr ?_)))
      · intro c d h1 h2
        have e0 : '0'.toNat = 48 := rfl
        have e9 : '9'.toNat = 57 := rfl
        have ea : 'a'.toNat = 97 := rfl
        have ef : 'f'.toNat = 102 := rfl
        have eA : 'A'.toNat = 65 := rfl
        have eF : 'F'.toNat = 70 := rfl
        unfold DigitChar at h1
        simp only [char_le]
        omega
      · rintro c (hc | hc | hc)
        · exact .inr hc
        · exact .inl (.inl ⟨hc.1, Char.le_trans hc.2 (by decide)⟩)
        · exact .inl (.inr (.inl ⟨hc.1, Char.le_trans hc.2 (by decide)⟩))
    · simp only [parseIntegerLiteral, Pair.inner, first, bind_ok', Pair.rule, Pair.text, List.drop_succ_cons, List.drop_zero]
      exact parseDigits_ok.2 hd.1
  | @integer t n hg hz =>
    have hno : ∀ {x y : String} {a b : Char} {e : Peg Rule}, x.toList = [a] → y.toList = [b] → NameChar a ∧ NameChar b ∧ a ≠ '_' ∧ b ≠ '_' ∧ ¬ ('0' ≤ a ∧ a ≤ '9') ∧ ¬ ('0' ≤ b ∧ b ≤ '9') →
        No dsdl whole (.seq (.lit "0") (.seq (.choice (.lit x) (.lit y)) e)) (t ++ rest) := by
      intro x y a b e hx hy hab
      have := hg.cons
      obtain ⟨c, u, rfl, hc, hs⟩ := this
      by_cases hc0 : c = '0'
      · subst hc0
        refine noSeq' (okChar rfl) (noSeq ((class_choice (class_char hx) (class_char hy)).no _ ?_))
        intro d v hd
        cases u with
        | nil =>
          rintro (rfl | rfl)
          · exact hr _ v hd hab.1
          · exact hr _ v hd hab.2.1
        | cons w u =>
          cases hd
          have := group_chars hg.1.1 d (by simp)
          obtain ⟨-, -, h1, h2, h3, h4⟩ := hab
          rintro (rfl | rfl)
          · rcases this with h | h
            · exact absurd h h1
            · exact absurd h h3
          · rcases this with h | h
            · exact absurd h h2
            · exact absurd h h4
      · refine noSeq (noChar rfl ?_)
        intro d v hd; cases hd; exact hc0
    refine integer_literal hg.starts (real_none hg hnd (hp ⟨n, hg⟩) noE) (v := .node .literal_integer_decimal t [])
      (okRule (okRight (noRule (hno rfl rfl ?_)) (okRight (noRule (hno rfl rfl ?_)) (okRight (noRule (hno rfl rfl ?_)) (decimal_ok hg hz hnd))))) ?_
    · unfold NameChar NameStart; decide
    · unfold NameChar NameStart; decide
    · unfold NameChar NameStart; decide
    · simp only [parseIntegerLiteral, Pair.inner, first, bind_ok', Pair.rule, Pair.text]
      exact parseDigits_ok.2 hg.1.1
  | real hm hdot =>
    obtain ⟨ps, h1, h2⟩ := point_ok (whole := whole) hm hdot h0 hnd
    refine real_literal (mant hm h0 rest) (okRule (okRight (noRule (noSeq' (okLeft h1) (exponent_no noE))) h1)) ?_
    simp only [parseRealLiteral, Pair.inner, first, bind_ok', Pair.rule]
    exact h2
  | @exponent t q e n x hm hx hg hn =>
    have h0' := mhead hm h0
    obtain ⟨v, h1, h2⟩ := exponent_ok (whole := whole) (s := []) (rest := rest) hm h0' hx (.inl rfl) hg hn hnd rfl
    refine real_literal (by rw [List.append_assoc]; exact mant hm h0' _) h1 (h2.trans ?_)
    rw [if_neg (by simp), zpow_natCast]
  | @exponentPlus t q e n x hm hx hg hn =>
    have h0' := mhead hm h0
    obtain ⟨v, h1, h2⟩ := exponent_ok (whole := whole) (s := ['+']) (rest := rest) hm h0' hx (.inr (.inl rfl)) hg hn hnd rfl
    refine real_literal (by rw [List.append_assoc]; exact mant hm h0' _) h1 (h2.trans ?_)
    rw [if_neg (by decide), zpow_natCast]
  | @exponentMinus t q e n x hm hx hg hn =>
    have h0' := mhead hm h0
    obtain ⟨v, h1, h2⟩ := exponent_ok (whole := whole) (s := ['-']) (rest := rest) hm h0' hx (.inr (.inr rfl)) hg hn hnd rfl
    refine real_literal (by rw [List.append_assoc]; exact mant hm h0' _) h1 (h2.trans ?_)
    rw [if_pos rfl, zpow_neg, zpow_natCast, ← div_eq_mul_inv]

end Verif.Parse
