import Verif.Front.Inner
import Verif.Front.WarnProps
import Verif.Front.GenProps
import Mathlib.Tactic.Linarith
import Mathlib.Tactic.NormNum

/-! # C122, C123: names, constants and extents in generated code -/

namespace Verif.Front

/-! ### Names in CamelCase -/

theorem splitWords_no_upper (l : List Char) : ∀ (word : List Char) (mode : Heck.Mode), l ≠ [] → (∀ c ∈ l, c.isUpper = false) → Heck.splitWords word mode l = [word ++ l] := by
  induction l with
  | nil => intro _ _ h; exact absurd rfl h
  | cons c cs ih =>
    intro word mode _ hl
    cases cs with
    | nil => rfl
    | cons next rest =>
      rw [Heck.splitWords]
      have hc := hl c (by simp)
      have hn := hl next (by simp)
      rw [if_neg (by simp [hn]), if_neg (by simp [hc]), ih _ _ (by simp) fun c' h => hl c' (by simp [h])]
      simp

theorem not_upper_of {c : Char} (h : c.isLower = true ∨ c.isDigit = true) : c.isUpper = false := by
  rcases Heck.small_or c with ⟨n, rfl⟩ | hb
  · revert n; decide +kernel
  · exact (Heck.big hb).1

/-- A word that begins with a letter. -/
def Word (letter : Char → Bool) (w : List Char) : Prop := ∃ c cs, w = c :: cs ∧ letter c = true ∧ ∀ d ∈ cs, letter d = true ∨ d.isDigit = true

theorem words_lower {ws : List (List Char)} (h : ∀ w ∈ ws, w ≠ [] ∧ ∀ c ∈ w, c.isLower = true ∨ c.isDigit = true) : Heck.words (Heck.underscored ws) = ws := by
  have hal : ∀ w ∈ ws, ∀ c ∈ w, c.isAlphanum = true := fun w hw c hc => Heck.alphanum_of (.inr ((h w hw).2 c hc))
  cases ws with
  | nil => rfl
  | cons v vs =>
    rw [Heck.words, Heck.runs_underscored (by simp) hal]
    generalize v :: vs = ws at *
    have : ∀ w ∈ ws, Heck.splitWords [] .boundary w = [w] := fun w hw =>
      splitWords_no_upper w [] .boundary (h w hw).1 fun c hc => not_upper_of ((h w hw).2 c hc)
    clear h hal
    induction ws with
    | nil => rfl
    | cons w ws ih => rw [List.flatMap_cons, this w (by simp), ih fun w' h => this w' (by simp [h])]; rfl

theorem Word.chars {letter : Char → Bool} {w : List Char} (h : Word letter w) : w ≠ [] ∧ ∀ c ∈ w, letter c = true ∨ c.isDigit = true := by
  obtain ⟨c, cs, rfl, h1, h2⟩ := h
  refine ⟨by simp, fun d hd => ?_⟩
  rcases List.mem_cons.1 hd with rfl | hd
  · exact .inl h1
  · exact h2 d hd

theorem words_of_words {letter : Char → Bool} (hl : letter = Char.isLower ∨ letter = Char.isUpper) {ws : List (List Char)} (h : ∀ w ∈ ws, Word letter w) :
    Heck.words (Heck.underscored ws) = ws := by
  rcases hl with rfl | rfl
  · exact words_lower fun w hw => (h w hw).chars
  · exact Heck.words_upper fun w hw => (h w hw).chars

theorem toUpper_upper {c : Char} (h : c.isUpper = true ∨ c.isLower = true) : c.toUpper.isUpper = true := by
  rcases Heck.small_or c with ⟨n, rfl⟩ | hb
  · revert n; decide +kernel
  · obtain ⟨h1, h2, _⟩ := Heck.big hb; simp [h1, h2] at h

theorem toLower_not_upper (c : Char) : c.toLower.isUpper = false := by
  rcases Heck.small_or c with ⟨n, rfl⟩ | hb
  · revert n; decide +kernel
  · obtain ⟨h1, _, _, _, h2⟩ := Heck.big hb; rw [h2, h1]

theorem toUpper_inj_lower {c d : Char} (hc : c.isLower = true) (hd : d.isLower = true) (h : c.toUpper = d.toUpper) : c = d := by
  have e : ∀ c : Char, c.isLower = true → c.toUpper.toLower = c := by
    intro c hc
    rcases Heck.small_or c with ⟨n, rfl⟩ | hb
    · revert n; decide +kernel
    · rw [(Heck.big hb).2.1] at hc; cases hc
  rw [← e c hc, ← e d hd, h]

theorem toLower_id {c : Char} (h : c.isLower = true ∨ c.isDigit = true) : c.toLower = c := by
  rcases Heck.small_or c with ⟨n, rfl⟩ | hb
  · revert n; decide +kernel
  · exact (Heck.big hb).2.2.2.2

theorem toLower_inj_upper {c d : Char} (hc : c.isUpper = true ∨ c.isDigit = true) (hd : d.isUpper = true ∨ d.isDigit = true) (h : c.toLower = d.toLower) : c = d := by
  have e : ∀ c : Char, c.isUpper = true ∨ c.isDigit = true → c.toLower.toUpper = c := by
    intro c hc
    rcases Heck.small_or c with ⟨n, rfl⟩ | hb
    · revert n; decide +kernel
    · obtain ⟨h1, _, h2, _⟩ := Heck.big hb; simp [h1, h2] at hc
  rw [← e c hc, ← e d hd, h]

theorem map_inj_on {f : Char → Char} {P : Char → Prop} (hf : ∀ c d, P c → P d → f c = f d → c = d) : ∀ {a b : List Char}, (∀ c ∈ a, P c) → (∀ c ∈ b, P c) → a.map f = b.map f → a = b
  | [], [], _, _, _ => rfl
  | [], _ :: _, _, _, h => by simp at h
  | _ :: _, [], _, _, h => by simp at h
  | c :: cs, d :: ds, ha, hb, h => by
    simp only [List.map_cons, List.cons.injEq] at h
    rw [hf c d (ha c (by simp)) (hb d (by simp)) h.1, map_inj_on hf (fun c' h' => ha c' (by simp [h'])) (fun c' h' => hb c' (by simp [h'])) h.2]

theorem capitalize_inj {letter : Char → Bool} (hl : letter = Char.isLower ∨ letter = Char.isUpper) {v w : List Char} (hv : Word letter v) (hw : Word letter w)
    (h : Heck.capitalize v = Heck.capitalize w) : v = w := by
  obtain ⟨c, cs, rfl, h1, h2⟩ := hv
  obtain ⟨d, ds, rfl, h3, h4⟩ := hw
  simp only [Heck.capitalize, List.cons.injEq] at h
  rcases hl with rfl | rfl
  · rw [toUpper_inj_lower h1 h3 h.1, map_inj_on (P := fun c => c.isLower = true ∨ c.isDigit = true)
      (fun c d hc hd h => by rwa [toLower_id hc, toLower_id hd] at h) h2 h4 h.2]
  · rw [Heck.toUpper_id (.inl h1), Heck.toUpper_id (.inl h3)] at h
    rw [h.1, map_inj_on (P := fun c => c.isUpper = true ∨ c.isDigit = true) (fun c d => toLower_inj_upper) h2 h4 h.2]

theorem split_capital {a b : List Char} {r s : List Char} (ha : ∀ c ∈ a, c.isUpper = false) (hb : ∀ c ∈ b, c.isUpper = false) (hr : ∀ c, r.head? = some c → c.isUpper = true)
    (hs : ∀ c, s.head? = some c → c.isUpper = true) (h : a ++ r = b ++ s) : a = b ∧ r = s := by
  induction a generalizing b with
  | nil =>
    cases b with
    | nil => exact ⟨rfl, h⟩
    | cons d ds =>
      have h1 := hb d (by simp)
      have h2 := hr d (by simp at h; rw [h]; rfl)
      rw [h1] at h2; cases h2
  | cons c cs ih =>
    cases b with
    | nil =>
      have h1 := ha c (by simp)
      have h2 := hs c (by simp at h; rw [← h]; rfl)
      rw [h1] at h2; cases h2
    | cons d ds =>
      simp only [List.cons_append, List.cons.injEq] at h
      obtain ⟨h1, h2⟩ := ih (fun c' h' => ha c' (by simp [h'])) (fun c' h' => hb c' (by simp [h'])) h.2
      exact ⟨by rw [h.1, h1], h2⟩

theorem capitals_head {letter : Char → Bool} (hl : letter = Char.isLower ∨ letter = Char.isUpper) {ws : List (List Char)} (h : ∀ w ∈ ws, Word letter w) :
    ∀ c, (ws.flatMap Heck.capitalize).head? = some c → c.isUpper = true := by
  cases ws with
  | nil => intro c hc; simp at hc
  | cons w ws =>
    obtain ⟨c, cs, rfl, h1, _⟩ := h w (by simp)
    intro d hd
    simp only [List.flatMap_cons, Heck.capitalize, List.cons_append, List.head?_cons, Option.some.injEq] at hd
    rw [← hd]
    exact toUpper_upper (by rcases hl with rfl | rfl; exacts [.inr h1, .inl h1])

theorem capitals_inj {letter : Char → Bool} (hl : letter = Char.isLower ∨ letter = Char.isUpper) : ∀ {vs ws : List (List Char)}, (∀ w ∈ vs, Word letter w) → (∀ w ∈ ws, Word letter w) →
    vs.flatMap Heck.capitalize = ws.flatMap Heck.capitalize → vs = ws
  | [], [], _, _, _ => rfl
  | [], w :: ws, _, hw, h => by
    obtain ⟨c, cs, rfl, _⟩ := hw w (by simp)
    simp [Heck.capitalize] at h
  | v :: vs, [], hv, _, h => by
    obtain ⟨c, cs, rfl, _⟩ := hv v (by simp)
    simp [Heck.capitalize] at h
  | v :: vs, w :: ws, hv, hw, h => by
    obtain ⟨c, cs, hv1, _⟩ := hv v (by simp)
    obtain ⟨d, ds, hw1, _⟩ := hw w (by simp)
    have hlow : ∀ l : List Char, ∀ c ∈ l.map Char.toLower, c.isUpper = false := by
      intro l c hc
      obtain ⟨d, _, rfl⟩ := List.mem_map.1 hc
      exact toLower_not_upper d
    have hvs : ∀ w ∈ vs, Word letter w := fun w' h' => hv w' (by simp [h'])
    have hws : ∀ w ∈ ws, Word letter w := fun w' h' => hw w' (by simp [h'])
    have h' := h
    simp only [List.flatMap_cons, hv1, hw1, Heck.capitalize, List.cons_append, List.cons.injEq] at h'
    obtain ⟨h2, h3⟩ := split_capital (hlow cs) (hlow ds) (capitals_head hl hvs) (capitals_head hl hws) h'.2
    have hvw : v = w := capitalize_inj hl (hv v (by simp)) (hw w (by simp)) (by rw [hv1, hw1, Heck.capitalize, Heck.capitalize, h'.1, h2])
    rw [hvw, capitals_inj hl hvs hws h3]

theorem upperCamel_words {letter : Char → Bool} (hl : letter = Char.isLower ∨ letter = Char.isUpper) {s : String} {ws : List (List Char)} (h : ∀ w ∈ ws, Word letter w)
    (hs : s.toList = (ws.intersperse ['_']).flatten) : (Heck.upperCamel s).toList = ws.flatMap Heck.capitalize := by
  rw [← Heck.underscored_eq] at hs
  rw [Heck.upperCamel, String.toList_ofList, hs, words_of_words hl h]

theorem WordName.not_under {letter : Char → Bool} (hl : letter = Char.isLower ∨ letter = Char.isUpper) {s : String} (h : WordName letter s) : s ≠ "_" := by
  rintro rfl
  obtain ⟨ws, hne, hw, hs⟩ := h
  cases ws with
  | nil => exact hne rfl
  | cons w ws =>
    obtain ⟨c, cs, rfl, h1, _⟩ := hw w (by simp)
    have : c = '_' := by
      have := congrArg List.head? hs
      cases ws <;> simp at this <;> exact this.symm
    subst this
    rcases hl with rfl | rfl <;> exact absurd h1 (by decide)

/-- Different names of words become different names. -/
theorem upperCamel_inj {letter : Char → Bool} (hl : letter = Char.isLower ∨ letter = Char.isUpper) {s t : String} (hs : WordName letter s) (ht : WordName letter t)
    (h : Heck.upperCamel s = Heck.upperCamel t) : s = t := by
  obtain ⟨ws, _, hw, hs⟩ := hs
  obtain ⟨vs, _, hv, ht⟩ := ht
  have h1 := congrArg String.toList h
  rw [upperCamel_words hl hw hs, upperCamel_words hl hv ht] at h1
  rw [← String.toList_inj, hs, ht, capitals_inj hl hw hv h1]

/-! ### Decimal numbers -/

theorem decimal_toDigits (n : Nat) : DecimalOf (Nat.toDigits 10 n) n := by
  induction n using Nat.strongRecOn with
  | _ n ih =>
    have hd : ∀ k < 10, (Nat.digitChar k).isDigit = true ∧ (Nat.digitChar k).toNat - 48 = k := by decide
    by_cases h : n < 10
    · rw [Nat.toDigits_of_lt_base h]
      obtain ⟨h1, h2⟩ := hd n h
      have := DecimalOf.digit h1
      rwa [h2] at this
    · rw [Nat.toDigits_of_base_le (by omega) (by omega)]
      obtain ⟨h1, h2⟩ := hd (n % 10) (Nat.mod_lt _ (by omega))
      have := DecimalOf.more (ih (n / 10) (Nat.div_lt_self (by omega) (by omega))) h1
      rw [h2, Nat.div_add_mod] at this
      exact this

theorem literal_means (z : ℤ) : ∃ text, (ConstantValue.int z).literal = .int text ∧ IntLiteral text z := by
  refine ⟨_, rfl, z.natAbs, ?_⟩
  have hdec : ∀ n : Nat, DecimalOf (toString n).toList n := by
    intro n
    rw [Nat.toString_eq_repr, Nat.toList_repr]; exact decimal_toDigits n
  by_cases h : z < 0
  · right
    rw [if_pos h]
    refine ⟨(toString z.natAbs).toList, ?_, hdec _, by omega⟩
    rw [String.toList_append]; rfl
  · left
    rw [if_neg h]
    exact ⟨hdec _, by omega⟩

/-! ### Names of members -/

theorem memberNames_struct (d : Bool) (e : Option Nat) (fields : List CField) (l : Bls.BitLengthSet) (cs : Constants) :
    (CMessage.struct d e fields l cs).memberNames = fields.filterMap CField.name := by
  simp only [CMessage.memberNames, CMessage.members, List.filterMap_map]
  congr 1; funext f; cases f <;> rfl

theorem memberNames_union (d : Bool) (e : Option Nat) (n : Nat) (variants : List CVariant) (l : Bls.BitLengthSet) (cs : Constants) :
    (CMessage.union d e n variants l cs).memberNames = variants.map CVariant.name := by
  simp only [CMessage.memberNames, CMessage.members, List.filterMap_map]
  induction variants with
  | nil => rfl
  | cons v vs ih => obtain ⟨n, s, a⟩ := v; simp [CVariant.member, CVariant.name] at ih ⊢; exact ih

theorem wellFormed_of {x : Externals} {files : List (TypeKey × File)} {types : List (TypeKey × Compiled)} (hd : DifferentNames files) (h : compile x files = .ok types) {key : TypeKey}
    {c : Compiled} (hm : (key, c) ∈ types) {m : CMessage} (hr : m ∈ c.messages) : WellFormed types m := by
  obtain ⟨n, file, _, _, hc⟩ := C84_closed x files types hd h key c hm
  exact C87_messages_partial x types key file c hc m hr

theorem camel_rustName {letter : Char → Bool} (hl : letter = Char.isLower ∨ letter = Char.isUpper) {s self : String} (hs : WordName letter s) (hself : WordName letter self)
    (he : Heck.upperCamel self = "Self") (hne : s ≠ self) : RustName (rustVariantName s) := by
  have hu : rustVariantName s = Heck.upperCamel s := by rw [rustVariantName, makeRustIdentifier_id (hs.not_under hl)]
  rw [hu]
  have hne' : Heck.upperCamel s ≠ "Self" := fun h => hne (upperCamel_inj hl hs hself (h.trans he.symm))
  obtain ⟨ws, hws, hw, hs⟩ := hs
  have hc := upperCamel_words hl hw hs
  have hal : ∀ c ∈ (Heck.upperCamel s).toList, c.isAlphanum = true := by
    intro c hcm
    rw [hc] at hcm
    obtain ⟨w, hwm, hcw⟩ := List.mem_flatMap.1 hcm
    refine Heck.capitalize_alphanum (fun d hd => ?_) c hcw
    rcases (Word.chars (letter := letter) (hw w hwm)).2 d hd with h | h
    · rcases hl with rfl | rfl
      · exact Heck.alphanum_of (.inr (.inl h))
      · exact Heck.alphanum_of (.inl h)
    · exact Heck.alphanum_of (.inr (.inr h))
  cases hl' : (Heck.upperCamel s).toList with
  | nil =>
    cases ws with
    | nil => exact absurd rfl hws
    | cons w ws =>
      obtain ⟨c, cs, rfl, _⟩ := hw w (by simp)
      rw [hl'] at hc; simp [Heck.capitalize] at hc
  | cons c cs =>
    have hup : c.isUpper = true := capitals_head hl hw c (by rw [← hc, hl']; rfl)
    have hup' : ∀ t : String, t.toList.head?.any Char.isUpper = false → Heck.upperCamel s ≠ t := by
      rintro t ht rfl
      rw [hl', List.head?_cons, Option.any_some, hup] at ht; cases ht
    refine ⟨hup' "_" (by decide), ?_, c, cs, hl', .inl (by simp [Char.isAlpha, hup]), fun d hd => .inl (hal d (by rw [hl']; simp [hd]))⟩
    have hk : ∀ t ∈ rustKeywords, t = "Self" ∨ t.toList.head?.any Char.isUpper = false := by decide +kernel
    intro hm
    rcases hk _ hm with h | h
    · exact hne' h
    · exact hup' _ h rfl

theorem variant_names {letter : Char → Bool} (hl : letter = Char.isLower ∨ letter = Char.isUpper) {names : List String} (hn : names.Nodup) (hw : ∀ n ∈ names, WordName letter n) :
    (names.map rustVariantName).Nodup := by
  refine List.Nodup.map_on (fun a ha b hb h => ?_) hn
  rw [rustVariantName, rustVariantName, makeRustIdentifier_id ((hw a ha).not_under hl), makeRustIdentifier_id ((hw b hb).not_under hl)] at h
  exact upperCamel_inj hl (hw a ha) (hw b hb) h

/-- `self` is a name of words. -/
theorem self_word : WordName Char.isLower "self" := ⟨["self".toList], by simp, by
  intro w hw
  rw [List.mem_singleton] at hw
  exact ⟨'s', "elf".toList, by rw [hw]; decide, by decide, by decide⟩, by decide⟩

/-- `SELF` is a name of words. -/
theorem self_upper_word : WordName Char.isUpper "SELF" := ⟨["SELF".toList], by simp, by
  intro w hw
  rw [List.mem_singleton] at hw
  exact ⟨'S', "ELF".toList, by rw [hw]; decide, by decide, by decide⟩, by decide⟩

/-- **C122** (fields): the fields of a generated struct have different names that Rust accepts. This is only so if no name is `_`, and none is a keyword of Rust. -/
theorem C122_fields_partial (x : Externals) (files : List (TypeKey × File)) (types : List (TypeKey × Compiled)) (hd : DifferentNames files) (h : compile x files = .ok types)
    (key : TypeKey) (c : Compiled) (hm : (key, c) ∈ types) (m : CMessage) (hr : m ∈ c.messages) (hu : ¬m.isUnion) (hunder : "_" ∉ m.memberNames) :
    (m.rustNames false).Nodup ∧ ((∀ n ∈ m.memberNames, NameShape n ∧ n ∉ rustKeywords) → ∀ n ∈ m.rustNames false, RustName n) := by
  have hw := wellFormed_of hd h hm hr
  cases m with
  | union d e n vs l cs => exact absurd rfl hu
  | struct d e fields l cs =>
    have hnames := hw.names
    rw [memberNames_struct] at hnames hunder ⊢
    have e1 : (CMessage.struct d e fields l cs).rustNames false = fields.filterMap CField.name := by
      simp only [CMessage.rustNames, Bool.false_eq_true, if_false]
      conv => rhs; rw [← List.map_id (fields.filterMap CField.name)]
      exact List.map_congr_left fun n hn => makeRustIdentifier_id fun he => hunder (he ▸ hn)
    rw [e1]
    refine ⟨hnames, fun hid n hn => ⟨fun he => hunder (he ▸ hn), (hid n hn).2, (hid n hn).1⟩⟩

/-- **C122** (variants of unions): the variants of the enum that is generated for a union have different names that Rust accepts. Proved for names of lowercase words each of which
begins with a letter, except `self`. -/
theorem C122_variants_partial (x : Externals) (files : List (TypeKey × File)) (types : List (TypeKey × Compiled)) (hd : DifferentNames files) (h : compile x files = .ok types)
    (key : TypeKey) (c : Compiled) (hm : (key, c) ∈ types) (m : CMessage) (hr : m ∈ c.messages) (hu : m.isUnion) (asEnum : Bool)
    (hn : ∀ n ∈ m.memberNames, WordName Char.isLower n ∧ n ≠ "self") : (m.rustNames asEnum).Nodup ∧ ∀ n ∈ m.rustNames asEnum, RustName n := by
  have hw := (wellFormed_of hd h hm hr).names
  cases m with
  | struct d e fields l cs => exact absurd hu (by simp [CMessage.isUnion])
  | union d e k vs l cs =>
    rw [memberNames_union] at hw hn
    have e1 : (CMessage.union d e k vs l cs).rustNames asEnum = (vs.map CVariant.name).map rustVariantName := by
      simp only [CMessage.rustNames, List.map_map]; rfl
    rw [e1]
    refine ⟨variant_names (.inl rfl) hw fun n hm => (hn n hm).1, fun n hm => ?_⟩
    obtain ⟨a, ha, rfl⟩ := List.mem_map.1 hm
    exact camel_rustName (.inl rfl) (hn a ha).1 self_word (by decide +kernel) (hn a ha).2

/-- **C122** (enums of constants): the variants of the enum that is generated for the constants of a struct have different names that Rust accepts. Proved for names of uppercase words
each of which begins with a letter, except `SELF`. -/
theorem C122_enum_partial (x : Externals) (files : List (TypeKey × File)) (types : List (TypeKey × Compiled)) (hd : DifferentNames files) (h : compile x files = .ok types)
    (key : TypeKey) (c : Compiled) (hm : (key, c) ∈ types) (m : CMessage) (hr : m ∈ c.messages) (hu : ¬m.isUnion)
    (hn : ∀ e ∈ m.constants, WordName Char.isUpper e.1 ∧ e.1 ≠ "SELF") : (m.rustNames true).Nodup ∧ ∀ n ∈ m.rustNames true, RustName n := by
  have hw := (wellFormed_of hd h hm hr).constants
  cases m with
  | union d e n vs l cs => exact absurd rfl hu
  | struct d e fields l cs =>
    have e1 : (CMessage.struct d e fields l cs).rustNames true = (cs.map Prod.fst).map rustVariantName := by
      simp only [CMessage.rustNames, List.map_map, if_true]; rfl
    rw [e1]
    refine ⟨variant_names (.inr rfl) hw fun n hm => ?_, fun n hm => ?_⟩
    · obtain ⟨a, ha, rfl⟩ := List.mem_map.1 hm
      exact (hn a ha).1
    · obtain ⟨a, ha, rfl⟩ := List.mem_map.1 hm
      obtain ⟨b, hb, rfl⟩ := List.mem_map.1 ha
      exact camel_rustName (.inr rfl) (hn b hb).1 self_upper_word (by decide +kernel) (hn b hb).2

/-! ### Constants -/

theorem roundUp_ok {bits : Nat} (h : bits ≤ 64) : ∃ n, roundUpIntegerSize bits = .ok n ∧ bits ≤ n ∧ (n = 8 ∨ n = 16 ∨ n = 32 ∨ n = 64) := by
  unfold roundUpIntegerSize
  split
  · exact ⟨8, rfl, by omega, by simp⟩
  · split
    · exact ⟨16, rfl, by omega, by simp⟩
    · split
      · exact ⟨32, rfl, by omega, by simp⟩
      · exact ⟨64, rfl, by omega, by simp⟩

/-- One constant. -/
theorem constant_literal {x : Externals} {ty : Prim} {v : Value} {c : ConstantValue} (h : Represents x ty v c) (hb : 1 ≤ ty.bits ∧ ty.bits ≤ 64) :
    ∃ p, rustConstantType ty = .ok p ∧ Denotes x p c.literal v := by
  cases ty with
  | boolean => obtain ⟨b, rfl, rfl⟩ := h; exact ⟨.bool, rfl, rfl⟩
  | byte => exact absurd h (by simp [Represents])
  | utf8 => exact absurd h (by simp [Represents])
  | int bits =>
    obtain ⟨z, rfl, rfl, h1, h2⟩ := h
    obtain ⟨n, hn, hle, _⟩ := roundUp_ok (bits := bits) hb.2
    obtain ⟨text, ht, hl⟩ := literal_means z
    refine ⟨.i n, by rw [rustConstantType, hn]; rfl, ?_⟩
    rw [ht]
    have hp : (2 : ℤ) ^ (bits - 1) ≤ 2 ^ (n - 1) := pow_le_pow_right₀ (by norm_num) (by omega)
    exact ⟨z, hl, rfl, by linarith, by linarith⟩
  | uint bits mode =>
    obtain ⟨n, hn, hle, hcases⟩ := roundUp_ok (bits := bits) hb.2
    refine ⟨.u n, by rw [rustConstantType, hn]; rfl, ?_⟩
    rcases h with ⟨k, rfl, rfl, hk⟩ | ⟨rfl, ch, rfl, rfl, hk⟩
    · obtain ⟨text, ht, hl⟩ := literal_means k
      rw [ht]
      exact ⟨k, hl, lt_of_lt_of_le hk (Nat.pow_le_pow_right (by norm_num) hle), .inl rfl⟩
    · obtain ⟨text, ht, hl⟩ := literal_means ch.toNat
      rw [ht]
      refine ⟨ch.toNat, hl, ?_, .inr ⟨ch, rfl, rfl⟩⟩
      have : 2 ^ 8 ≤ 2 ^ n := Nat.pow_le_pow_right (by norm_num) hle
      omega
  | float16 m => obtain ⟨q, n, rfl, h1, rfl⟩ := h; exact ⟨.f16, rfl, q, rfl, h1⟩
  | float32 m => obtain ⟨q, n, rfl, h1, rfl⟩ := h; exact ⟨.f32, rfl, q, rfl, h1⟩
  | float64 m => obtain ⟨q, n, rfl, h1, rfl⟩ := h; exact ⟨.f64, rfl, q, rfl, h1⟩

theorem rustConstants_ok {x : Externals} : ∀ {cs : Constants}, (∀ e ∈ cs, Represents x e.2.ty e.2.dsdlValue e.2.value ∧ 1 ≤ e.2.ty.bits ∧ e.2.ty.bits ≤ 64) →
    ∃ out, rustConstants cs = .ok out ∧ List.Forall₂ (fun e o => o.1 = makeRustIdentifier e.1 ∧ Denotes x o.2.1 o.2.2 e.2.dsdlValue ∧ rustConstantType e.2.ty = .ok o.2.1) cs out
  | [], _ => ⟨[], rfl, .nil⟩
  | (name, c) :: cs, h => by
    obtain ⟨h1, h2⟩ := h (name, c) (by simp)
    obtain ⟨p, h3, h4⟩ := constant_literal h1 h2
    obtain ⟨out, h5, h6⟩ := rustConstants_ok (cs := cs) fun e he => h e (by simp [he])
    refine ⟨(makeRustIdentifier name, p, c.value.literal) :: out, ?_, .cons ⟨rfl, h4, h3⟩ h6⟩
    rw [rustConstants, h3]
    simp only [Outcome.bind, h5]

/-- **C123** (constants): for the constants of a type the generator does not panic. There is one constant in the generated code for each, in order, with its name (`_0` for `_`), a Rust
type of at least its size, and a literal that is in the range of this type and means the value of the constant. -/
theorem C123_constants (x : Externals) (files : List (TypeKey × File)) (types : List (TypeKey × Compiled)) (hd : DifferentNames files) (h : compile x files = .ok types)
    (hwidth : ∀ e ∈ files, ConstantWidths e.2) (key : TypeKey) (c : Compiled) (hm : (key, c) ∈ types) (m : CMessage) (hr : m ∈ c.messages) :
    ∃ out, rustConstants m.constants = .ok out ∧ List.Forall₂ (fun e o => o.1 = (if e.1 = "_" then "_0" else e.1) ∧ Denotes x o.2.1 o.2.2 e.2.dsdlValue) m.constants out := by
  obtain ⟨n, file, hf, _, hc⟩ := C84_closed x files types hd h key c hm
  obtain ⟨_, hcs⟩ := C83_constants x types key file c hc m hr
  obtain ⟨out, h1, h2⟩ := rustConstants_ok (x := x) (cs := m.constants) fun e he => by
    obtain ⟨_, h1, ss, expr, h2, h3, _⟩ := hcs e he
    exact ⟨h1, hwidth _ hf ss _ _ _ h2 h3⟩
  refine ⟨out, h1, h2.imp fun e o h => ⟨?_, h.2.1⟩⟩
  rw [h.1, makeRustIdentifier]
  split
  · rename_i he; rw [he]; rfl
  · rfl

/-- **C123** (extent): the generated extent is that of the type in bytes. This is only so if it is less than 2^32. -/
theorem C123_extent_partial (x : Externals) (files : List (TypeKey × File)) (types : List (TypeKey × Compiled)) (hd : DifferentNames files) (h : compile x files = .ok types)
    (key : TypeKey) (c : Compiled) (hm : (key, c) ∈ types) (m : CMessage) (hr : m ∈ c.messages) (hsmall : ∀ bits, m.extent = some bits → bits < 8 * 2 ^ 32) :
    (m.extent = none ∧ extentBytes m.extent = .ok none) ∨ ∃ bytes, m.extent = some (8 * bytes) ∧ extentBytes m.extent = .ok (some bytes) := by
  have hw := (wellFormed_of hd h hm hr).extent
  cases he : m.extent with
  | none => exact .inl ⟨rfl, rfl⟩
  | some bits =>
    have h8 := hw bits he
    have hb := hsmall bits he
    refine .inr ⟨bits / 8, by congr 1; omega, ?_⟩
    rw [extentBytes, if_pos (by omega)]

/-! ### Cases -/

/-- A message with these fields, a union with these variants, and a message with these constants and one field. -/
def innerFiles (fields variants constants : List String) : List (TypeKey × File) :=
  [(⟨["pkg"], "S", 1, 0⟩, ⟨none, some (fields.map (fun n => .field (.scalar (.prim (uintTy 8))) n) ++ [.directive "sealed" none])⟩),
    (⟨["pkg"], "U", 1, 0⟩, ⟨none, some (.directive "union" none :: variants.map (fun n => .field (.scalar (.prim (uintTy 8))) n) ++ [.directive "sealed" none])⟩),
    (⟨["pkg"], "E", 1, 0⟩, ⟨none, some ((constants.zipIdx.map fun e => .constant (uintTy 8) e.1 (.number e.2)) ++ [.field (.scalar (.prim (uintTy 8))) "v", .directive "extent" (some (.number 64))])⟩)]

/-- The names in the code that is generated for these files: of fields, of variants, and of the variants for the constants. -/
def rustNamesOf (types : List (TypeKey × Compiled)) : List (List String) := types.flatMap fun e => e.2.messages.map (·.rustNames (e.1.name == "E"))

theorem inner_different (fields variants constants : List String) : DifferentNames (innerFiles fields variants constants) := by
  simp [innerFiles, DifferentNames, SameName]; decide +kernel

-- The files meet the requirements of C122 and C123.
example : ∃ types ws, compileWithWarnings demoX (innerFiles ["a", "b_c", "B_c"] ["first_value", "second2", "first_value2"] ["MODE_A", "MODE_B2"]) = .ok (types, ws) ∧
    (rustNamesOf types == [["a", "b_c", "B_c"], ["FirstValue", "Second2", "FirstValue2"], ["ModeA", "ModeB2"]]) = true := warnings_of_check (by decide +kernel)

example : WordName Char.isLower "first_value2" ∧ WordName Char.isUpper "MODE_B2" :=
  ⟨⟨["first".toList, "value2".toList], by simp, by
      intro w hw
      simp only [List.mem_cons, List.not_mem_nil, or_false] at hw
      rcases hw with rfl | rfl
      · exact ⟨'f', "irst".toList, by decide, by decide, by decide⟩
      · exact ⟨'v', "alue2".toList, by decide, by decide, by decide⟩, by decide⟩,
    ⟨["MODE".toList, "B2".toList], by simp, by
      intro w hw
      simp only [List.mem_cons, List.not_mem_nil, or_false] at hw
      rcases hw with rfl | rfl
      · exact ⟨'M', "ODE".toList, by decide, by decide, by decide⟩
      · exact ⟨'B', "2".toList, by decide, by decide, by decide⟩, by decide⟩⟩

example : ∀ e ∈ innerFiles ["a"] ["b", "c"] ["D"], ConstantWidths e.2 := by
  intro e he ss ty name ex hs hm
  simp only [innerFiles, List.mem_cons, List.not_mem_nil, or_false] at he
  rcases he with rfl | rfl | rfl <;> simp at hs <;> subst hs <;> simp at hm
  obtain ⟨rfl, _⟩ := hm
  decide

-- The constants in the generated code.
example : rustConstants [("A", ⟨.int 12, .rational (-5), .int (-5)⟩), ("_", ⟨uintTy 33, .rational 12345678901, .int 12345678901⟩)] =
      .ok [("A", .i 16, .int "-5"), ("_0", .u 64, .int "12345678901")] ∧ extentBytes (some 128) = .ok (some 16) := by
  refine ⟨by decide +kernel, by decide +kernel⟩

/-- **C122 does not hold** for the variants of unions: `a1` and `a_1` become the same name, without a warning; so do the constants `MODE1` and `MODE_1` as variants of an enum. -/
theorem C122_same_variant_counterexample : ∃ types, compileWithWarnings demoX (innerFiles ["a"] ["a1", "a_1"] ["MODE1", "MODE_1"]) =
    .ok (types, []) ∧ rustNamesOf types = [["a"], ["A1", "A1"], ["Mode1", "Mode1"]] := by
  obtain ⟨types, ws, h1, h2⟩ : ∃ types ws, compileWithWarnings demoX (innerFiles ["a"] ["a1", "a_1"] ["MODE1", "MODE_1"]) = .ok (types, ws) ∧
      decide (ws = [] ∧ rustNamesOf types = [["a"], ["A1", "A1"], ["Mode1", "Mode1"]]) = true := warnings_of_check (by decide +kernel)
  have h2 := of_decide_eq_true h2
  exact ⟨types, by rw [h1, h2.1], h2.2⟩

/-- **C122 does not hold** for names that are no identifiers in Rust: `_` becomes `_0`, which another field can have; keywords are kept; a variant `_1` becomes `1`, and `self` becomes
the keyword `Self`. -/
theorem C122_identifier_counterexample : ∃ types ws, compileWithWarnings demoX (innerFiles ["_", "_0", "fn"] ["_1", "self"] ["A", "B"]) = .ok (types, ws) ∧
    rustNamesOf types = [["_0", "_0", "fn"], ["1", "Self"], ["A", "B"]] ∧ ¬RustName "fn" ∧ ¬RustName "1" ∧ ¬RustName "Self" := by
  obtain ⟨types, ws, h1, h2⟩ : ∃ types ws, compileWithWarnings demoX (innerFiles ["_", "_0", "fn"] ["_1", "self"] ["A", "B"]) = .ok (types, ws) ∧
      decide (rustNamesOf types = [["_0", "_0", "fn"], ["1", "Self"], ["A", "B"]]) = true := warnings_of_check (by decide +kernel)
  refine ⟨types, ws, h1, of_decide_eq_true h2, fun h => h.2.1 (by decide), ?_, fun h => h.2.1 (by decide)⟩
  rintro ⟨_, _, c, cs, h, hc, _⟩
  have : c = '1' := by have := congrArg List.head? h; simpa using this.symm
  subst this
  revert hc; decide

/-- **C123 does not hold** for extents of 4 GiB and more: the compiler accepts them and the generator panics. -/
theorem C123_extent_counterexample : ∃ types ws, compileWithWarnings demoX [(⟨["pkg"], "T", 1, 0⟩, ⟨none, some [.directive "extent" (some (.number 34359738368))]⟩)] = .ok (types, ws) ∧
    types.flatMap (fun e => e.2.messages.map fun m => extentBytes m.extent) = [.panic] := by
  obtain ⟨types, ws, h1, h2⟩ : ∃ types ws, compileWithWarnings demoX [(⟨["pkg"], "T", 1, 0⟩, ⟨none, some [.directive "extent" (some (.number 34359738368))]⟩)] = .ok (types, ws) ∧
      decide (types.flatMap (fun e => e.2.messages.map fun m => extentBytes m.extent) = [.panic]) = true := warnings_of_check (by decide +kernel)
  exact ⟨types, ws, h1, of_decide_eq_true h2⟩

/-- The nearest number with `bits` binary digits after the point, the even one of two: rounding of numbers from 1 to 2 to a floating-point number with `bits` bits of fraction (IEEE 754). -/
def roundFraction (bits : Nat) (q : ℚ) : ℚ :=
  let scaled := q * 2 ^ bits
  let below := scaled.floor
  let n := if scaled - below < 1 / 2 then below else if 1 / 2 < scaled - below then below + 1 else if below % 2 = 0 then below else below + 1
  n / 2 ^ bits

/-- **C123 does not hold** for float16: a constant is first rounded to float32 and then to float16 (canadensis_dsdl_frontend/src/types/constant.rs L166), so that for the number
1 + 2^-11 + 2^-30 the result is not the nearest float16. Assumes that both conversions round to the nearest number. -/
theorem C123_float16_counterexample : ∃ q : ℚ, 1 ≤ q ∧ q < 2 ∧ |roundFraction 10 q - q| < |roundFraction 10 (roundFraction 23 q) - q| :=
  ⟨1 + 1 / 2 ^ 11 + 1 / 2 ^ 30, by decide +kernel, by decide +kernel, by decide +kernel⟩

end Verif.Front
