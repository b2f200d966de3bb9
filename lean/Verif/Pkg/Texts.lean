import Verif.Pkg.Spec

/-! What the patterns of file names and of names of types match. -/

namespace Verif.Pkg

open Verif.Front (TypeKey)

/-! ### Texts with dots -/

theorem splitDots_ne (cs : List Char) : splitDots cs ≠ [] := by
  cases cs with
  | nil => simp [splitDots]
  | cons c cs => unfold splitDots; split <;> [simp; (split <;> simp)]

theorem splitDots_dot (cs : List Char) : splitDots ('.' :: cs) = [] :: splitDots cs := by
  rw [splitDots]
  cases h : splitDots cs with
  | nil => exact absurd h (splitDots_ne cs)
  | cons a r => simp

theorem splitDots_part : ∀ {a : List Char}, '.' ∉ a → splitDots a = [a]
  | [], _ => rfl
  | c :: a, h => by
    have h1 : '.' ∉ a := fun hm => h (by simp [hm])
    have h2 : c ≠ '.' := fun hm => h (by simp [hm])
    rw [splitDots, splitDots_part h1]; simp [h2]

theorem splitDots_append : ∀ {a : List Char} (cs : List Char), '.' ∉ a → splitDots (a ++ '.' :: cs) = a :: splitDots cs
  | [], cs, _ => splitDots_dot cs
  | c :: a, cs, h => by
    have h1 : '.' ∉ a := fun hm => h (by simp [hm])
    have h2 : c ≠ '.' := fun hm => h (by simp [hm])
    rw [List.cons_append, splitDots, splitDots_append cs h1]; simp [h2]

theorem splitDots_dotted : ∀ {parts : List (List Char)}, parts ≠ [] → (∀ a ∈ parts, '.' ∉ a) → splitDots (dotted parts) = parts
  | [a], _, h => splitDots_part (h a (by simp))
  | a :: b :: rest, _, h => by
    rw [dotted, splitDots_append _ (h a (by simp)), splitDots_dotted (by simp) fun c hc => h c (by simp [List.mem_cons.1 hc])]

/-- A text is put together of parts in only one way. -/
theorem dotted_inj {parts parts' : List (List Char)} (h1 : parts ≠ []) (h2 : parts' ≠ []) (h3 : ∀ a ∈ parts, '.' ∉ a) (h4 : ∀ a ∈ parts', '.' ∉ a)
    (h : dotted parts = dotted parts') : parts = parts' := by
  rw [← splitDots_dotted h1 h3, h, splitDots_dotted h2 h4]

theorem dotted_cons {a : List Char} {rest : List (List Char)} (h : rest ≠ []) : dotted (a :: rest) = a ++ '.' :: dotted rest := by
  cases rest with
  | nil => exact absurd rfl h
  | cons b rest => rfl

theorem dotted_append : ∀ {xs ys : List (List Char)}, ys ≠ [] → dotted (xs ++ ys) = xs.flatMap (fun a => a ++ ['.']) ++ dotted ys
  | [], _, _ => by simp
  | x :: xs, ys, h => by rw [List.cons_append, dotted_cons (by simp [h]), dotted_append h]; simp

theorem dotted_dropLast {xs : List (List Char)} (h : xs ≠ []) : (xs.flatMap fun a => a ++ ['.']).dropLast = dotted xs := by
  obtain ⟨ys, y, rfl⟩ := List.eq_nil_or_concat xs |>.resolve_left h
  rw [List.concat_eq_append, dotted_append (by simp)]
  simp only [List.flatMap_append, List.flatMap_cons, List.flatMap_nil, List.append_nil, dotted]
  rw [← List.append_assoc, List.dropLast_concat]

/-! ### Numbers -/

theorem parseNumber_iff {max : Nat} {t : List Char} {n : Nat} : parseNumber max t = some n ↔ Number t n ∧ n ≤ max := by
  unfold parseNumber Number
  split
  · rename_i h
    simp only [List.all_eq_true] at h
    constructor
    · intro he; obtain rfl := Option.some.inj he; exact ⟨⟨h.1, h.2.1, rfl⟩, h.2.2⟩
    · rintro ⟨⟨_, _, rfl⟩, _⟩; rfl
  · rename_i h
    simp only [List.all_eq_true] at h
    simp only [reduceCtorEq, false_iff]
    rintro ⟨⟨h1, h2, rfl⟩, h3⟩
    exact h ⟨h1, h2, h3⟩

theorem number_part {t : List Char} {n : Nat} (h : Number t n) : Part t :=
  ⟨h.1, fun hm => absurd (h.2.1 _ hm) (by decide)⟩

theorem number_unique {t : List Char} {n m : Nat} (h : Number t n) (h' : Number t m) : n = m := h.2.2.symm.trans h'.2.2

theorem number_toString (n : Nat) : Number (toString n).toList n := by
  rw [Nat.toString_eq_repr, Nat.toList_repr]
  refine ⟨Nat.toDigits_ne_nil, fun c hc => Nat.isDigit_of_mem_toDigits (by omega) (by omega) hc, Nat.ofDigitChars_ten_toDigits⟩

/-! ### Pieces of patterns -/

/-- What `\d+` matches. -/
def Digits (nd : Char → Bool) (t : List Char) : Prop := t ≠ [] ∧ ∀ c ∈ t, (c.isDigit || (decide (128 ≤ c.toNat) && nd c)) = true

theorem digits_part {nd : Char → Bool} {t : List Char} (h : Digits nd t) : Part t :=
  ⟨h.1, fun hm => by
    have := h.2 _ hm
    have h1 : Char.isDigit '.' = false := by decide
    simp [h1] at this⟩

theorem number_digits {nd : Char → Bool} {t : List Char} {n : Nat} (h : Number t n) : Digits nd t := ⟨h.1, fun c hc => by simp [h.2.1 c hc]⟩

theorem matches_digits {nd : Char → Bool} {s k} : (Re.plus (digit nd)).Matches s k ↔ k = [] ∧ Digits nd s := by
  rw [digit, matches_plus_char]; rfl

theorem matches_only {c : Char} {s k} : (only c).Matches s k ↔ k = [] ∧ s = [c] := by
  rw [only, matches_char]; simp

theorem matches_notDot {s k} : (Re.plus notDot).Matches s k ↔ k = [] ∧ Part s := by
  rw [notDot, matches_plus_char]
  simp only [Part, bne_iff_ne, ne_eq]
  refine and_congr_right fun _ => and_congr_right fun _ => ⟨fun h hm => h _ hm rfl, fun h c hc he => h (he ▸ hc)⟩

theorem matches_exactly {w : String} {s k} : (exactly w).Matches s k ↔ k = [] ∧ s = w.toList := by
  unfold exactly
  generalize w.toList = cs
  induction cs generalizing s k with
  | nil => rw [List.foldr_nil, matches_empty]; exact and_comm
  | cons c cs ih =>
    rw [List.foldr_cons, matches_seq]
    constructor
    · rintro ⟨s, t, l, m, rfl, rfl, h1, h2⟩
      obtain ⟨rfl, rfl⟩ := matches_only.1 h1
      obtain ⟨rfl, rfl⟩ := ih.1 h2
      exact ⟨rfl, rfl⟩
    · rintro ⟨rfl, rfl⟩
      exact ⟨[c], cs, [], [], rfl, rfl, matches_only.2 ⟨rfl, rfl⟩, ih.2 ⟨rfl, rfl⟩⟩

/-! ### Names of files -/

/-- What the pattern of file names matches. -/
theorem matches_fileName {nd : Char → Bool} {cs : List Char} {k : Captures} : (fileNamePattern nd).Matches cs k ↔
    ∃ name a b ext, Part name ∧ Digits nd a ∧ Digits nd b ∧ (ext = "uavcan".toList ∨ ext = "dsdl".toList) ∧
      ((cs = dotted [name, a, b, ext] ∧ k = [("short_name", name), ("version_major", a), ("version_minor", b)]) ∨
        ∃ p, Digits nd p ∧ cs = dotted [p, name, a, b, ext] ∧ k = [("port_id", p), ("short_name", name), ("version_major", a), ("version_minor", b)]) := by
  unfold fileNamePattern
  constructor
  · intro h
    obtain ⟨s0, t0, l0, m0, rfl, rfl, h0, r0⟩ := matches_seq.1 h
    obtain ⟨name, t1, l1, m1, rfl, rfl, h1, r1⟩ := matches_seq.1 r0
    obtain ⟨s2, t2, l2, m2, rfl, rfl, h2, r2⟩ := matches_seq.1 r1
    obtain ⟨a, t3, l3, m3, rfl, rfl, h3, r3⟩ := matches_seq.1 r2
    obtain ⟨s4, t4, l4, m4, rfl, rfl, h4, r4⟩ := matches_seq.1 r3
    obtain ⟨b, t5, l5, m5, rfl, rfl, h5, r5⟩ := matches_seq.1 r4
    obtain ⟨s6, ext, l6, m6, rfl, rfl, h6, r6⟩ := matches_seq.1 r5
    obtain ⟨_, rfl, gh1⟩ := matches_group.1 h1
    obtain ⟨rfl, qh1⟩ := matches_notDot.1 gh1
    obtain ⟨rfl, rfl⟩ := matches_only.1 h2
    obtain ⟨_, rfl, gh3⟩ := matches_group.1 h3
    obtain ⟨rfl, qh3⟩ := matches_digits.1 gh3
    obtain ⟨rfl, rfl⟩ := matches_only.1 h4
    obtain ⟨_, rfl, gh5⟩ := matches_group.1 h5
    obtain ⟨rfl, qh5⟩ := matches_digits.1 gh5
    obtain ⟨rfl, rfl⟩ := matches_only.1 h6
    have he : m6 = [] ∧ (ext = "uavcan".toList ∨ ext = "dsdl".toList) := by
      rcases matches_alt.1 r6 with h | h
      · exact ⟨(matches_exactly.1 h).1, .inl (matches_exactly.1 h).2⟩
      · exact ⟨(matches_exactly.1 h).1, .inr (matches_exactly.1 h).2⟩
    obtain ⟨rfl, he⟩ := he
    refine ⟨name, a, b, ext, qh1, qh3, qh5, he, ?_⟩
    rcases matches_opt.1 h0 with h0 | ⟨rfl, rfl⟩
    · obtain ⟨p, t7, l7, m7, rfl, rfl, h7, h8⟩ := matches_seq.1 h0
      obtain ⟨_, rfl, gh7⟩ := matches_group.1 h7
      obtain ⟨rfl, qh7⟩ := matches_digits.1 gh7
      obtain ⟨rfl, rfl⟩ := matches_only.1 h8
      exact .inr ⟨p, qh7, by simp [dotted], by simp⟩
    · exact .inl ⟨by simp [dotted], by simp⟩
  · rintro ⟨name, a, b, ext, h1, h3, h5, he, h⟩
    have hext : (Re.alt (exactly "uavcan") (exactly "dsdl")).Matches ext [] := by
      rcases he with he | he
      · exact matches_alt.2 (.inl (matches_exactly.2 ⟨rfl, he⟩))
      · exact matches_alt.2 (.inr (matches_exactly.2 ⟨rfl, he⟩))
    have hdot : (only '.').Matches ['.'] [] := matches_only.2 ⟨rfl, rfl⟩
    have hrest := Re.Matches.seq (.group (name := "short_name") (matches_notDot.2 ⟨rfl, h1⟩)) (.seq hdot (.seq (.group (name := "version_major") (matches_digits.2 ⟨rfl, h3⟩))
      (.seq hdot (.seq (.group (name := "version_minor") (matches_digits.2 ⟨rfl, h5⟩)) (.seq hdot hext)))))
    rcases h with ⟨rfl, rfl⟩ | ⟨p, hp, rfl, rfl⟩
    · have := Re.Matches.seq (matches_opt.2 (.inr ⟨rfl, rfl⟩) : (Re.opt (.seq (.group "port_id" (.plus (digit nd))) (only '.'))).Matches [] []) hrest
      simpa [dotted] using this
    · have := Re.Matches.seq (matches_opt.2 (.inl (.seq (.group (matches_digits.2 ⟨rfl, hp⟩)) hdot)) :
        (Re.opt (.seq (.group "port_id" (.plus (digit nd))) (only '.'))).Matches (p ++ ['.']) [("port_id", p)]) hrest
      simpa [dotted] using this

theorem ext_part {ext : List Char} (h : ext = "uavcan".toList ∨ ext = "dsdl".toList) : '.' ∉ ext := by
  rcases h with rfl | rfl <;> decide

/-- A file name matches in only one way. -/
theorem fileName_unique {nd : Char → Bool} {cs : List Char} {k l : Captures} (h : (fileNamePattern nd).Matches cs k) (h' : (fileNamePattern nd).Matches cs l) : k = l := by
  obtain ⟨name, a, b, ext, h1, h2, h3, he, hm⟩ := matches_fileName.1 h
  obtain ⟨name', a', b', ext', h1', h2', h3', he', hm'⟩ := matches_fileName.1 h'
  clear h h'
  have p1 := h1.2
  have p2 := (digits_part h2).2
  have p3 := (digits_part h3).2
  have p4 := ext_part he
  have p1' := h1'.2
  have p2' := (digits_part h2').2
  have p3' := (digits_part h3').2
  have p4' := ext_part he'
  rcases hm with ⟨rfl, rfl⟩ | ⟨p, hp, rfl, rfl⟩ <;> rcases hm' with ⟨h', rfl⟩ | ⟨p', hp', h', rfl⟩
  · have := dotted_inj (by simp) (by simp) (by simp [*]) (by simp [*]) h'
    simp only [List.cons.injEq] at this
    obtain ⟨rfl, rfl, rfl, -⟩ := this
    rfl
  · have p0' := (digits_part hp').2
    have := dotted_inj (by simp) (by simp) (by simp [*]) (by simp [*]) h'
    simp at this
  · have p0 := (digits_part hp).2
    have := dotted_inj (by simp) (by simp) (by simp [*]) (by simp [*]) h'
    simp at this
  · have p0 := (digits_part hp).2
    have p0' := (digits_part hp').2
    have := dotted_inj (by simp) (by simp) (by simp [*]) (by simp [*]) h'
    simp only [List.cons.injEq] at this
    obtain ⟨rfl, rfl, rfl, rfl, -⟩ := this
    rfl

theorem fileName_captures {nd : Char → Bool} {cs : List Char} {k : Captures} : (fileNamePattern nd).captures cs = some k ↔ (fileNamePattern nd).Matches cs k :=
  Re.captures_iff fun _ h h' => fileName_unique h h'

theorem parseFileName_iff {nd : Char → Bool} {s : String} {info : FileInfo} : parseFileName nd s = some info ↔ FileNameText info s.toList := by
  constructor
  · intro h
    unfold parseFileName at h
    split at h
    · rename_i k hk
      obtain ⟨name, a, b, ext, h1, h2, h3, he, hm⟩ := matches_fileName.1 (fileName_captures.1 hk)
      rcases hm with ⟨hs, rfl⟩ | ⟨p, hp, hs, rfl⟩
      · simp only [List.lookup, String.reduceBEq] at h
        split at h
        · rename_i ma mi h4 h5
          obtain ⟨h4, h4'⟩ := parseNumber_iff.1 h4
          obtain ⟨h5, h5'⟩ := parseNumber_iff.1 h5
          obtain rfl := Option.some.inj h
          rw [hs]
          exact .noPort h1 h4 (by omega) h5 (by omega) he.symm
        · cases h
      · simp only [List.lookup, String.reduceBEq] at h
        cases h0 : parseNumber (2 ^ 32 - 1) p with
        | none => rw [h0] at h; simp at h
        | some n =>
          rw [h0] at h
          simp only [Option.map_some] at h
          split at h
          · rename_i ma mi h4 h5
            obtain ⟨h4, h4'⟩ := parseNumber_iff.1 h4
            obtain ⟨h5, h5'⟩ := parseNumber_iff.1 h5
            obtain ⟨h0, h0'⟩ := parseNumber_iff.1 h0
            obtain rfl := Option.some.inj h
            rw [hs]
            exact .port h0 (by omega) h1 h4 (by omega) h5 (by omega) he.symm
          · cases h
    · cases h
  · intro h
    unfold parseFileName
    generalize s.toList = cs at h
    cases h with
    | @noPort name a b ext major minor h1 h2 h3 h4 h5 h6 =>
      rw [fileName_captures.2 (matches_fileName.2 ⟨name, a, b, ext, h1, number_digits h2, number_digits h4, h6.symm, .inl ⟨rfl, rfl⟩⟩)]
      have e1 : parseNumber 255 a = some major := parseNumber_iff.2 ⟨h2, by omega⟩
      have e2 : parseNumber 255 b = some minor := parseNumber_iff.2 ⟨h4, by omega⟩
      simp [List.lookup, e1, e2]
    | @port p name a b ext n major minor h0 h0' h1 h2 h3 h4 h5 h6 =>
      rw [fileName_captures.2 (matches_fileName.2 ⟨name, a, b, ext, h1, number_digits h2, number_digits h4, h6.symm, .inr ⟨p, number_digits h0, rfl, rfl⟩⟩)]
      have e0 : parseNumber (2 ^ 32 - 1) p = some n := parseNumber_iff.2 ⟨h0, by omega⟩
      have e1 : parseNumber 255 a = some major := parseNumber_iff.2 ⟨h2, by omega⟩
      have e2 : parseNumber 255 b = some minor := parseNumber_iff.2 ⟨h4, by omega⟩
      simp only [List.lookup, String.reduceBEq, e0, e1, e2, Option.map_some]

/-! ### Names of types -/

theorem matches_parts {s k} : (Re.plus (.seq (.plus notDot) (only '.'))).Matches s k ↔
    k = [] ∧ ∃ parts, parts ≠ [] ∧ (∀ a ∈ parts, Part a) ∧ s = parts.flatMap fun a => a ++ ['.'] := by
  have one : ∀ {s k}, (Re.seq (.plus notDot) (only '.')).Matches s k ↔ k = [] ∧ ∃ a, Part a ∧ s = a ++ ['.'] := by
    intro s k
    rw [matches_seq]
    constructor
    · rintro ⟨a, t, l, m, rfl, rfl, h1, h2⟩
      obtain ⟨rfl, h3⟩ := matches_notDot.1 h1
      obtain ⟨rfl, rfl⟩ := matches_only.1 h2
      exact ⟨rfl, a, h3, rfl⟩
    · rintro ⟨rfl, a, h1, rfl⟩
      exact ⟨a, ['.'], [], [], rfl, rfl, matches_notDot.2 ⟨rfl, h1⟩, matches_only.2 ⟨rfl, rfl⟩⟩
  have many : ∀ {s k}, (Re.star (.seq (.plus notDot) (only '.'))).Matches s k ↔ k = [] ∧ ∃ parts : List (List Char), (∀ a ∈ parts, Part a) ∧ s = parts.flatMap fun a => a ++ ['.'] := by
    intro s k
    constructor
    · intro h
      generalize ha : Re.star (.seq (.plus notDot) (only '.')) = a at h
      induction h with
      | none => exact ⟨rfl, [], by simp, rfl⟩
      | more h _ h' _ ih =>
        injection ha with ha
        subst ha
        obtain ⟨rfl, a, h1, rfl⟩ := one.1 h
        obtain ⟨rfl, parts, h2, rfl⟩ := ih rfl
        exact ⟨rfl, a :: parts, by simpa using ⟨h1, h2⟩, by simp⟩
      | _ => cases ha
    · rintro ⟨rfl, parts, h, rfl⟩
      induction parts with
      | nil => exact .none
      | cons a parts ih =>
        have := Re.Matches.more (one.2 ⟨rfl, a, h a (by simp), rfl⟩) (by simp) (ih fun b hb => h b (by simp [hb]))
        simpa using this
  rw [Re.plus, matches_seq]
  constructor
  · rintro ⟨s, t, l, m, rfl, rfl, h1, h2⟩
    obtain ⟨rfl, a, h3, rfl⟩ := one.1 h1
    obtain ⟨rfl, parts, h4, rfl⟩ := many.1 h2
    exact ⟨rfl, a :: parts, by simp, by simpa using ⟨h3, h4⟩, by simp⟩
  · rintro ⟨rfl, parts, hne, h, rfl⟩
    cases parts with
    | nil => exact absurd rfl hne
    | cons a parts =>
      exact ⟨a ++ ['.'], parts.flatMap fun a => a ++ ['.'], [], [], by simp, rfl, one.2 ⟨rfl, a, h a (by simp), rfl⟩,
        many.2 ⟨rfl, parts, fun b hb => h b (by simp [hb]), rfl⟩⟩

/-- What the pattern of names of types matches. -/
theorem matches_key {nd : Char → Bool} {cs : List Char} {k : Captures} : (keyPattern nd).Matches cs k ↔
    ∃ parts a b, parts ≠ [] ∧ (∀ a ∈ parts, Part a) ∧ Digits nd a ∧ Digits nd b ∧ cs = dotted (parts ++ [a, b]) ∧
      k = [("path_and_name", parts.flatMap fun a => a ++ ['.']), ("version_major", a), ("version_minor", b)] := by
  unfold keyPattern
  constructor
  · intro h
    obtain ⟨s, t1, l1, m1, rfl, rfl, h1, r1⟩ := matches_seq.1 h
    obtain ⟨a, t2, l2, m2, rfl, rfl, h2, r2⟩ := matches_seq.1 r1
    obtain ⟨s3, b, l3, m3, rfl, rfl, h3, r3⟩ := matches_seq.1 r2
    obtain ⟨_, rfl, gh1⟩ := matches_group.1 h1
    obtain ⟨rfl, parts, hne, hp, rfl⟩ := matches_parts.1 gh1
    obtain ⟨_, rfl, gh2⟩ := matches_group.1 h2
    obtain ⟨rfl, qh2⟩ := matches_digits.1 gh2
    obtain ⟨rfl, rfl⟩ := matches_only.1 h3
    obtain ⟨_, rfl, gh⟩ := matches_group.1 r3
    obtain ⟨rfl, qh⟩ := matches_digits.1 gh
    exact ⟨parts, a, b, hne, hp, qh2, qh, by rw [dotted_append (by simp)]; simp [dotted], by simp⟩
  · rintro ⟨parts, a, b, hne, hp, h1, h2, rfl, rfl⟩
    have := Re.Matches.seq (.group (name := "path_and_name") (matches_parts.2 ⟨rfl, parts, hne, hp, rfl⟩))
      (.seq (.group (name := "version_major") (matches_digits.2 ⟨rfl, h1⟩)) (.seq (matches_only.2 ⟨rfl, rfl⟩ : (only '.').Matches ['.'] [])
        (.group (name := "version_minor") (matches_digits.2 ⟨rfl, h2⟩))))
    rw [dotted_append (by simp)]
    simpa [dotted] using this

/-- A name matches in only one way. -/
theorem key_unique {nd : Char → Bool} {cs : List Char} {k l : Captures} (h : (keyPattern nd).Matches cs k) (h' : (keyPattern nd).Matches cs l) : k = l := by
  obtain ⟨parts, a, b, hne, hp, h1, h2, rfl, rfl⟩ := matches_key.1 h
  obtain ⟨parts', a', b', hne', hp', h1', h2', he, rfl⟩ := matches_key.1 h'
  have aux : ∀ (parts : List (List Char)) (a b : List Char), (∀ a ∈ parts, Part a) → Digits nd a → Digits nd b → ∀ c ∈ parts ++ [a, b], '.' ∉ c := by
    intro parts a b hp h1 h2 c hc
    simp only [List.mem_append, List.mem_cons, List.not_mem_nil, or_false] at hc
    rcases hc with hc | rfl | rfl
    · exact (hp c hc).2
    · exact (digits_part h1).2
    · exact (digits_part h2).2
  have := dotted_inj (by simp) (by simp) (aux parts a b hp h1 h2) (aux parts' a' b' hp' h1' h2') he
  obtain ⟨rfl, h3⟩ := List.append_inj' this rfl
  simp only [List.cons.injEq, and_true] at h3
  obtain ⟨rfl, rfl⟩ := h3
  rfl

theorem key_captures {nd : Char → Bool} {cs : List Char} {k : Captures} : (keyPattern nd).captures cs = some k ↔ (keyPattern nd).Matches cs k :=
  Re.captures_iff fun _ h h' => key_unique h h'

theorem parseFullName_parts {parts : List (List Char)} (hne : parts ≠ []) (hp : ∀ a ∈ parts, Part a) {path : List String} {name : String} :
    parseFullName (dotted parts) = some (path, name) ↔ path ≠ [] ∧ parts = (path ++ [name]).map String.toList := by
  unfold parseFullName
  rw [splitDots_dotted hne fun a ha => (hp a ha).2]
  obtain ⟨init, last, rfl⟩ := List.eq_nil_or_concat parts |>.resolve_left hne
  rw [List.concat_eq_append]
  simp only [List.map_append, List.map_cons, List.map_nil, List.length_append, List.length_map, List.length_cons, List.length_nil, List.getLast?_concat,
    List.dropLast_concat, Option.map_some]
  split
  · rename_i hl
    simp only [Option.some.injEq, Prod.mk.injEq]
    constructor
    · rintro ⟨rfl, rfl⟩
      refine ⟨?_, by simp [Function.comp_def]⟩
      intro h
      have := congrArg List.length h
      simp at this; simp [this] at hl
    · rintro ⟨h1, h2⟩
      obtain ⟨rfl, h3⟩ := List.append_inj' h2 rfl
      simp only [List.cons.injEq, and_true] at h3
      subst h3
      simp [Function.comp_def]
  · rename_i hl
    simp only [reduceCtorEq, false_iff, not_and]
    intro h1 h2
    obtain ⟨rfl, h3⟩ := List.append_inj' h2 rfl
    have : 0 < path.length := List.length_pos_iff.2 h1
    simp only [List.length_map] at hl; omega

theorem fromStr_iff {nd : Char → Bool} {s : String} {key : TypeKey} : keyFromStr nd s = some key ↔ KeyText key s.toList := by
  constructor
  · intro h
    unfold keyFromStr at h
    split at h
    · rename_i k hk
      obtain ⟨parts, a, b, hne, hp, h1, h2, hs, rfl⟩ := matches_key.1 (key_captures.1 hk)
      simp only [List.lookup, String.reduceBEq] at h
      rw [dotted_dropLast hne] at h
      split at h
      · rename_i path name ma mi h3 h4 h5
        obtain ⟨g3, rfl⟩ := (parseFullName_parts hne hp).1 h3
        obtain ⟨h4, h4'⟩ := parseNumber_iff.1 h4
        obtain ⟨h5, h5'⟩ := parseNumber_iff.1 h5
        obtain rfl := Option.some.inj h
        exact ⟨a, b, hs, g3, fun s hs => hp _ (List.mem_map_of_mem hs), h4, by simpa using by omega, h5, by simpa using by omega⟩
      · cases h
    · cases h
  · rintro ⟨a, b, hs, hne, hp, h1, h1', h2, h2'⟩
    have hp' : ∀ a ∈ (key.path ++ [key.name]).map String.toList, Part a := by
      intro a ha
      obtain ⟨s, hs, rfl⟩ := List.mem_map.1 ha
      exact hp s hs
    have hk := key_captures.2 (matches_key.2 ⟨(key.path ++ [key.name]).map String.toList, a, b, by simp, hp', number_digits (nd := nd) h1, number_digits h2, hs, rfl⟩)
    have e1 : parseNumber 255 a = some key.major := parseNumber_iff.2 ⟨h1, by omega⟩
    have e2 : parseNumber 255 b = some key.minor := parseNumber_iff.2 ⟨h2, by omega⟩
    have e3 := (parseFullName_parts (by simp) hp' (path := key.path) (name := key.name)).2 ⟨hne, rfl⟩
    unfold keyFromStr
    rw [hk]
    simp only [List.lookup, String.reduceBEq]
    rw [dotted_dropLast (by simp), e1, e2, e3]

theorem text_dotted (k : TypeKey) : (keyDisplay k).toList = dotted ((k.path ++ [k.name]).map String.toList ++ [(toString k.major).toList, (toString k.minor).toList]) := by
  rw [keyDisplay, String.toList_ofList, fullNameText, dotted_append (by simp)]
  simp [dotted, List.flatMap_map]

end Verif.Pkg
