import Verif.Tool.FilterModel
import Verif.FilterConfig.Props
import Verif.Parse.Digits

/-!
Property C136: what the program `optimize_filters` prints, from its command line.
-/

namespace Verif.Tool

open Verif.FilterConfig
open Verif.Parse (DigitChar digitOf digitOf_some positional fromStrRadix afterPlus)

/-! ### Specification vocabulary -/

/-- A text of digits to a base, and its value. -/
inductive Reads (base : Nat) : List Char → Nat → Prop
  | nil : Reads base [] 0
  | digit {t n c d} : Reads base t n → DigitChar c d → d < base → Reads base (t ++ [c]) (n * base + d)

/-- A number on the command line: digits, with or without a `+`. -/
def Number (base : Nat) (t : List Char) (n : Nat) : Prop := ∃ ds, ds ≠ [] ∧ Reads base ds n ∧ (t = ds ∨ t = '+' :: ds)

/-- A message ID on the command line: a number to base 16 of at most 29 bits, behind `0x`. -/
def AsksFor (t : List Char) (id : BitVec 32) : Prop := ∃ ds, t = '0' :: 'x' :: ds ∧ Number 16 ds id.toNat ∧ id.toNat < 2 ^ 29

/-- A command line of the form in the documentation: a number of filters and message IDs. -/
def CommandLine (args : List (List Char)) (max : Nat) (ids : List (BitVec 32)) : Prop :=
  ∃ first rest, args = first :: rest ∧ Number 10 first max ∧ max < 2 ^ 64 ∧ List.Forall₂ AsksFor rest ids

/-- A line that shows an ID and a mask: each as `0x` and eight digits, with three spaces between. -/
def Shows (line : List Char) (id mask : BitVec 32) : Prop :=
  ∃ a b, line = "0x".toList ++ a ++ "   0x".toList ++ b ∧ a.length = 8 ∧ b.length = 8 ∧ Reads 16 a id.toNat ∧ Reads 16 b mask.toNat

/-! ### Reading numbers -/

theorem reads_iff {base : Nat} {t : List Char} : ∀ {n : Nat}, Reads base t n ↔ ∃ ds, t.mapM (digitOf base) = some ds ∧ positional base ds = n := by
  induction t using List.reverseRecOn with
  | nil =>
    intro n
    constructor
    · intro h
      generalize ht : ([] : List Char) = t at h
      cases h with
      | nil => exact ⟨[], rfl, rfl⟩
      | digit _ _ _ => simp at ht
    · rintro ⟨ds, h, rfl⟩
      cases h
      exact .nil
  | append_singleton t c ih =>
    intro n
    constructor
    · intro h
      generalize ht : t ++ [c] = u at h
      cases h with
      | nil => simp at ht
      | @digit _ _ _ d h hc hd =>
        obtain ⟨rfl, hcc⟩ := List.append_inj' ht rfl
        cases hcc
        obtain ⟨ds, h1, h2⟩ := ih.1 h
        refine ⟨ds ++ [d], ?_, ?_⟩
        · rw [List.mapM_append, h1]
          simp only [List.mapM_cons, List.mapM_nil, digitOf_some.2 ⟨hc, hd⟩]
          rfl
        · simp only [positional, List.foldl_append, List.foldl_cons, List.foldl_nil] at h2 ⊢
          rw [h2]
    · rintro ⟨ds, h, rfl⟩
      rw [List.mapM_append] at h
      cases h1 : t.mapM (digitOf base) with
      | none => rw [h1] at h; cases h
      | some es =>
        cases h2 : digitOf base c with
        | none => rw [h1] at h; simp only [List.mapM_cons, h2] at h; cases h
        | some d =>
          rw [h1] at h
          simp only [List.mapM_cons, List.mapM_nil, h2] at h
          cases h
          have hd := digitOf_some.1 h2
          have := Reads.digit (ih.2 ⟨es, h1, rfl⟩) hd.1 hd.2
          simpa [positional] using this

theorem plus_not_digit {base d : Nat} : digitOf base '+' ≠ some d := by
  intro h
  have := (digitOf_some.1 h).1
  have h0 : '0'.toNat = 48 := rfl
  have ha : 'a'.toNat = 97 := rfl
  have hA : 'A'.toNat = 65 := rfl
  have hp : '+'.toNat = 43 := rfl
  unfold DigitChar at this
  rw [h0, ha, hA, hp] at this
  omega

theorem reads_no_plus {base n : Nat} {t : List Char} : ¬Reads base ('+' :: t) n := by
  intro h
  obtain ⟨ds, h, -⟩ := reads_iff.1 h
  rw [List.mapM_cons] at h
  cases h2 : digitOf base '+' with
  | some d => exact plus_not_digit h2
  | none => rw [h2] at h; cases h

theorem fromStrRadix_iff {base max : Nat} {t : List Char} {n : Nat} : fromStrRadix base max t = some n ↔ Number base t n ∧ n ≤ max := by
  have key : ∀ u : List Char, (((u.mapM (digitOf base)).bind fun ds => if positional base ds ≤ max then some (positional base ds) else none) = some n)
      ↔ Reads base u n ∧ n ≤ max := by
    intro u
    rw [Option.bind_eq_some_iff, reads_iff]
    constructor
    · rintro ⟨ds, h, h'⟩
      split at h'
      · cases h'; exact ⟨⟨ds, h, rfl⟩, by assumption⟩
      · cases h'
    · rintro ⟨⟨ds, h, rfl⟩, h'⟩
      exact ⟨ds, h, if_pos h'⟩
  unfold fromStrRadix
  have hplus : (∃ u, t = '+' :: u) ∨ afterPlus t = t := by
    unfold afterPlus
    split
    · exact .inl ⟨_, rfl⟩
    · exact .inr rfl
  rcases hplus with ⟨u, rfl⟩ | hp
  · simp only [afterPlus, List.isEmpty_iff]
    split
    · subst u
      constructor
      · nofun
      · rintro ⟨⟨ds, h1, h2, h3 | h3⟩, -⟩
        · subst h3; exact (reads_no_plus h2).elim
        · cases h3; exact (h1 rfl).elim
    · rw [key]
      constructor
      · rintro ⟨h1, h2⟩; exact ⟨⟨u, by assumption, h1, .inr rfl⟩, h2⟩
      · rintro ⟨⟨ds, h1, h2, h3 | h3⟩, h4⟩
        · subst h3; exact (reads_no_plus h2).elim
        · cases h3; exact ⟨h2, h4⟩
  · simp only [hp, List.isEmpty_iff]
    split
    · subst t
      constructor
      · nofun
      · rintro ⟨⟨ds, h1, h2, h3 | h3⟩, -⟩
        · exact (h1 h3.symm).elim
        · cases h3
    · rw [key]
      constructor
      · rintro ⟨h1, h2⟩; exact ⟨⟨t, by assumption, h1, .inl rfl⟩, h2⟩
      · rintro ⟨⟨ds, h1, h2, h3 | h3⟩, h4⟩
        · subst h3; exact ⟨h2, h4⟩
        · subst h3; simp [afterPlus] at hp

/-! ### Writing numbers -/

theorem digitChar_digit : ∀ d, d < 16 → DigitChar (Nat.digitChar d) d := by
  intro d hd
  have : ∀ d : Fin 16, digitOf 16 (Nat.digitChar d) = some d.1 := by decide +kernel
  exact (digitOf_some.1 (this ⟨d, hd⟩)).1

theorem reads_toDigits (n : Nat) : Reads 16 (Nat.toDigits 16 n) n := by
  induction n using Nat.strongRecOn with
  | ind n ih =>
    rw [Nat.toDigits_eq_if (by omega)]
    split
    · have := Reads.digit .nil (digitChar_digit n (by assumption)) (by assumption)
      simpa using this
    · have := Reads.digit (ih (n / 16) (by omega)) (digitChar_digit (n % 16) (by omega)) (by omega)
      rwa [Nat.div_add_mod'] at this

theorem reads_zeros {t : List Char} {n : Nat} (k : Nat) (h : Reads 16 t n) : Reads 16 (List.replicate k '0' ++ t) n := by
  induction h with
  | nil =>
    rw [List.append_nil]
    induction k with
    | zero => exact .nil
    | succ k ih =>
      rw [List.replicate_succ']
      exact Reads.digit (d := 0) ih (.inl ⟨by omega, rfl⟩) (by omega)
  | digit _ hc hd ih =>
    rw [← List.append_assoc]
    exact Reads.digit ih hc hd

theorem shows_line (f : Filter) : Shows (filterLine f) f.id f.mask := by
  have len : ∀ x : BitVec 32, (List.replicate (8 - (Nat.toDigits 16 x.toNat).length) '0' ++ Nat.toDigits 16 x.toNat).length = 8 := by
    intro x
    have : (Nat.toDigits 16 x.toNat).length ≤ 8 := (Nat.length_toDigits_le_iff (by omega) (by omega)).2 x.isLt
    simp only [List.length_append, List.length_replicate]
    omega
  refine ⟨_, _, ?_, len f.id, len f.mask, reads_zeros _ (reads_toDigits _), reads_zeros _ (reads_toDigits _)⟩
  simp [filterLine, hexWithPrefix]

/-! ### The command line -/

theorem parseHex_iff {t : List Char} {id : BitVec 32} :
    parseHexWithPrefix t = .ok id ↔ ∃ ds, t = '0' :: 'x' :: ds ∧ Number 16 ds id.toNat := by
  constructor
  · intro h
    unfold parseHexWithPrefix at h
    split at h
    · split at h
      · cases h
        rename_i n hn
        obtain ⟨h1, h2⟩ := fromStrRadix_iff.1 hn
        refine ⟨_, rfl, ?_⟩
        rwa [BitVec.toNat_ofNat, Nat.mod_eq_of_lt (by omega)]
      · cases h
    · cases h
  · rintro ⟨ds, rfl, h⟩
    have hne : ds ≠ [] := by
      obtain ⟨es, h1, -, h3 | h3⟩ := h
      · rwa [h3]
      · rw [h3]; exact List.cons_ne_nil _ _
    obtain ⟨c, cs, rfl⟩ := List.exists_cons_of_ne_nil hne
    have := fromStrRadix_iff.2 ⟨h, (by have := id.isLt; omega : id.toNat ≤ 2 ^ 32 - 1)⟩
    simp only [parseHexWithPrefix, this, BitVec.ofNat_toNat, BitVec.setWidth_eq]

theorem forall₂_imp {α β : Type} {R S : α → β → Prop} (h : ∀ a b, R a b → S a b) {xs : List α} {ys : List β} (hr : List.Forall₂ R xs ys) : List.Forall₂ S xs ys := by
  induction hr with
  | nil => exact .nil
  | cons h' _ ih => exact .cons (h _ _ h') ih

theorem asks_fit {ts : List (List Char)} {ids : List (BitVec 32)} (h : List.Forall₂ AsksFor ts ids) : ∀ id ∈ ids, id.toNat < 2 ^ 29 := by
  induction h with
  | nil => nofun
  | cons h _ ih =>
    obtain ⟨_, _, _, hl⟩ := h
    intro y hy
    rcases List.mem_cons.1 hy with rfl | hy
    · exact hl
    · exact ih y hy

theorem mapM_ok {α β ε : Type} {f : α → Except ε β} {xs : List α} : ∀ {ys : List β},
    xs.mapM f = .ok ys ↔ List.Forall₂ (fun x y => f x = .ok y) xs ys := by
  induction xs with
  | nil =>
    intro ys
    constructor
    · intro h; cases h; exact .nil
    · intro h; cases h; rfl
  | cons x xs ih =>
    intro ys
    rw [List.mapM_cons]
    constructor
    · intro h
      cases h1 : f x with
      | error e => rw [h1] at h; cases h
      | ok y =>
        cases h2 : xs.mapM f with
        | error e => rw [h1, h2] at h; cases h
        | ok zs => rw [h1, h2] at h; cases h; exact .cons h1 (ih.1 h2)
    · intro h
      cases h with
      | cons h1 h2 => rw [h1, ih.2 h2]; rfl

theorem fits_iff (x : BitVec 32) : (x &&& ~~~0x1fffffff#32 != 0#32) = false ↔ x.toNat < 2 ^ 29 := by
  have e : x &&& ~~~0x1fffffff#32 = (x >>> 29) <<< 29 := by
    apply BitVec.eq_of_getLsbD_eq
    intro i hi
    have : (~~~0x1fffffff#32).getLsbD i = decide (29 ≤ i) := by
      have : ∀ i : Fin 32, (~~~0x1fffffff#32).getLsbD i = decide (29 ≤ i.1) := by decide +kernel
      exact this ⟨i, hi⟩
    rw [BitVec.getLsbD_and, this, BitVec.getLsbD_shiftLeft, BitVec.getLsbD_ushiftRight]
    by_cases h : 29 ≤ i
    · simp [h, hi, Nat.not_lt.2 h, Nat.add_sub_cancel' h]
    · simp [h, Nat.lt_of_not_le h]
  rw [e, bne_eq_false_iff_eq, ← BitVec.toNat_inj]
  simp only [BitVec.toNat_shiftLeft, BitVec.toNat_ushiftRight, Nat.shiftLeft_eq, Nat.shiftRight_eq_div_pow]
  have := x.isLt
  have h0 : (0#32).toNat = 0 := rfl
  rw [h0]
  omega

theorem getArgs_iff {args : List (List Char)} {max : Nat} {ids : List (BitVec 32)} : getArgs args = .ok (max, ids) ↔ CommandLine args max ids := by
  unfold CommandLine
  cases args with
  | nil =>
    constructor
    · nofun
    · rintro ⟨_, _, h, _⟩; cases h
  | cons first rest =>
    have hany : ∀ ys : List (BitVec 32), (ys.any fun id => id &&& ~~~0x1fffffff#32 != 0#32) = false ↔ ∀ y ∈ ys, y.toNat < 2 ^ 29 := by
      intro ys
      rw [List.any_eq_false]
      simp only [Bool.not_eq_true, fits_iff]
    constructor
    · intro h
      simp only [getArgs] at h
      cases h1 : fromStrRadix 10 (2 ^ 64 - 1) first with
      | none => rw [h1] at h; cases h
      | some m =>
        rw [h1] at h
        cases h2 : rest.mapM parseHexWithPrefix with
        | error e => rw [h2] at h; cases h
        | ok is =>
          rw [h2] at h
          dsimp only at h
          split at h
          · cases h
          · rename_i hf
            cases h
            obtain ⟨a, b⟩ := fromStrRadix_iff.1 h1
            refine ⟨first, rest, rfl, a, by omega, ?_⟩
            replace hf := (hany _).1 (Bool.eq_false_iff.2 hf)
            replace h2 := mapM_ok.1 h2
            clear h1 a b
            induction h2 with
            | nil => exact .nil
            | cons h h' ih =>
              obtain ⟨ds, e, hn⟩ := parseHex_iff.1 h
              exact .cons ⟨ds, e, hn, hf _ List.mem_cons_self⟩ (ih fun y hy => hf y (List.mem_cons_of_mem _ hy))
    · rintro ⟨_, _, h, h1, h2, h3⟩
      cases h
      have h4 : rest.mapM parseHexWithPrefix = .ok ids := mapM_ok.2 (forall₂_imp (fun t id ⟨ds, e, hn, _⟩ => parseHex_iff.2 ⟨ds, e, hn⟩) h3)
      have h5 : (ids.any fun id => id &&& ~~~0x1fffffff#32 != 0#32) = false := by
        rw [hany]
        exact asks_fit h3
      simp only [getArgs, fromStrRadix_iff.2 ⟨h1, (by omega : max ≤ 2 ^ 64 - 1)⟩, h4, h5]
      rfl

/-! ### The property -/

theorem printFilters_map (fs : List Filter) : printFilters fs = "ID         | Mask\n".toList ++ (fs.map filterLine).flatMap fun l => l ++ ['\n'] := by
  unfold printFilters
  rw [List.flatMap_map]

theorem printFilters_nil : printFilters [] = "ID         | Mask\n".toList := by
  unfold printFilters
  rw [List.flatMap_nil, List.append_nil]

theorem run_of {debug : Bool} {args : List (List Char)} {max : Nat} {ids : List (BitVec 32)} {out : List Filter × List Filter} (h : getArgs args = .ok (max, ids))
    (ho : optimize debug (ids.map Filter.exactMatch) max = some out) : optimizeFilters debug args = .ok (printFilters out.1) := by
  unfold optimizeFilters
  rw [h]
  dsimp only
  rw [ho]

theorem exact_facts (id : BitVec 32) (h : id.toNat < 2 ^ 29) : (Filter.exactMatch id).accepts id = true ∧
    (Filter.exactMatch id).id = id ∧ (Filter.exactMatch id).mask = 0x1fffffff#32 := by
  have hi : (Filter.exactMatch id).id = id := by
    apply BitVec.eq_of_getLsbD_eq
    intro i hi
    rw [Filter.exactMatch, new_id_bit]
    rcases Nat.lt_or_ge i 29 with h' | h'
    · simp [h']
    · have : id.getLsbD i = false := Nat.testBit_lt_two_pow (Nat.lt_of_lt_of_le h (Nat.pow_le_pow_right (by omega) h'))
      rw [this]; simp
  refine ⟨?_, hi, ?_⟩
  · rw [Filter.accepts, hi]; exact beq_self_eq_true _
  · rfl

/-- **C136**, what the program prints. For a command line of the documented form with at least one filter it succeeds and prints the header and then
one line per filter, as many as allowed and no more than the IDs; every ID of the command line agrees with the ID of some line on all bits of the line's mask,
so hardware that is configured as printed receives it; and with enough filters each line asks for exactly one ID, in the order of the command line. -/
theorem C136_prints_partial (debug : Bool) (args : List (List Char)) (max : Nat) (ids : List (BitVec 32)) (h : CommandLine args max ids) (hmax : 0 < max) :
    ∃ lines : List (List Char), optimizeFilters debug args = .ok ("ID         | Mask\n".toList ++ lines.flatMap fun l => l ++ ['\n']) ∧
      lines.length = min ids.length max ∧
      (∀ l ∈ lines, ∃ i m, Shows l i m) ∧
      (∀ id ∈ ids, ∃ l ∈ lines, ∃ i m, Shows l i m ∧ m &&& id = m &&& i) ∧
      (ids.length ≤ max → List.Forall₂ (fun l id => Shows l id 0x1fffffff#32) lines ids) := by
  have hfit : ∀ id ∈ ids, id.toNat < 2 ^ 29 := by
    obtain ⟨_, _, _, _, _, h3⟩ := h
    exact asks_fit h3
  obtain ⟨out, slice, h1, h2, h3, h4⟩ := C21_optimize_bounded_superset_partial debug (ids.map Filter.exactMatch) max hmax
    (fun f hf => by obtain ⟨id, _, rfl⟩ := List.mem_map.1 hf; exact ⟨_, _, rfl⟩)
  refine ⟨out.map filterLine, ?_, ?_, ?_, ?_, ?_⟩
  · exact (run_of (getArgs_iff.2 h) h1).trans (congrArg FilterRun.ok (printFilters_map out))
  · rw [List.length_map, h2, List.length_map]
  · intro l hl
    obtain ⟨f, _, rfl⟩ := List.mem_map.1 hl
    exact ⟨_, _, shows_line f⟩
  · intro id hid
    obtain ⟨f, hf, ha⟩ := h3 id ⟨_, List.mem_map_of_mem hid, (exact_facts id (hfit id hid)).1⟩
    exact ⟨_, List.mem_map_of_mem hf, _, _, shows_line f, by simpa [Filter.accepts] using ha⟩
  · intro hle
    rw [h4 (by rwa [List.length_map])]
    clear h h1 h2 h3 h4 hle hmax
    induction ids with
    | nil => exact .nil
    | cons id ids ih =>
      have e := exact_facts id (hfit id List.mem_cons_self)
      have s := shows_line (Filter.exactMatch id)
      rw [e.2.1, e.2.2] at s
      exact .cons s (ih fun y hy => hfit y (List.mem_cons_of_mem _ hy))

/-- **C136**, which command lines are refused: the program prints filters for exactly the command lines of the documented form, and gives an error for the
others; it never panics. -/
theorem C136_accepts (debug : Bool) (args : List (List Char)) :
    ((∃ text, optimizeFilters debug args = .ok text) ↔ ∃ max ids, CommandLine args max ids) ∧ optimizeFilters debug args ≠ .panic := by
  have hopt : ∀ (max : Nat) (ids : List (BitVec 32)), ∃ out, optimize debug (ids.map Filter.exactMatch) max = some out := by
    intro max ids
    rcases Nat.eq_zero_or_pos max with rfl | hm
    · exact ⟨_, C21_optimize_zero debug _⟩
    · obtain ⟨out, slice, h1, -⟩ := C21_optimize_bounded_superset_partial debug (ids.map Filter.exactMatch) max hm
        (fun f hf => by obtain ⟨id, _, rfl⟩ := List.mem_map.1 hf; exact ⟨_, _, rfl⟩)
      exact ⟨_, h1⟩
  cases hg : getArgs args with
  | error e =>
    refine ⟨⟨?_, ?_⟩, ?_⟩
    · rintro ⟨text, h⟩; simp [optimizeFilters, hg] at h
    · rintro ⟨max, ids, h⟩; rw [getArgs_iff.2 h] at hg; cases hg
    · simp [optimizeFilters, hg]
  | ok r =>
    obtain ⟨max, ids⟩ := r
    obtain ⟨out, ho⟩ := hopt max ids
    refine ⟨⟨fun _ => ⟨max, ids, getArgs_iff.1 hg⟩, fun _ => ⟨_, run_of hg ho⟩⟩, ?_⟩
    rw [run_of hg ho]; nofun

/-- **C136** fails for zero filters: the program then succeeds and prints no filter, so that none of the IDs it was asked for is received. -/
theorem C136_zero_counterexample (debug : Bool) (args : List (List Char)) (ids : List (BitVec 32)) (h : CommandLine args 0 ids) :
    optimizeFilters debug args = .ok "ID         | Mask\n".toList := by
  exact (run_of (getArgs_iff.2 h) (C21_optimize_zero debug _)).trans (congrArg FilterRun.ok printFilters_nil)

/-- Such a command line, with an ID. -/
example : CommandLine ["0".toList, "0x107d552a".toList] 0 [0x107d552a#32] := getArgs_iff.1 (by decide +kernel)

/-- A command line of the documented form: two of the three IDs end up in one filter. -/
example : CommandLine ["2".toList, "0x107d552a".toList, "0x11733775".toList, "0x1073373B".toList] 2 [0x107d552a#32, 0x11733775#32, 0x1073373b#32] ∧
    optimizeFilters true ["2".toList, "0x107d552a".toList, "0x11733775".toList, "0x1073373B".toList] =
      .ok "ID         | Mask\n0x107d552a   0x1fffffff\n0x10733731   0x1effffb1\n".toList :=
  ⟨getArgs_iff.1 (by decide +kernel), by decide +kernel⟩

/-- Refused: an ID of more than 29 bits, one without the prefix, and no argument. -/
example : optimizeFilters true ["2".toList, "0x20000000".toList] = .err .canId ∧ optimizeFilters true ["2".toList, "107d552a".toList] = .err .numberFormat ∧
    optimizeFilters true [] = .err .usage ∧ optimizeFilters true ["-1".toList] = .err .parseInt := by decide +kernel

end Verif.Tool
