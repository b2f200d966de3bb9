import Verif.Front.LenMeans
import Verif.Front.TypesProps

/-!
C86: the lengths that the compiler attributes to types are those that the types have.
-/

namespace Verif.Front

open Verif.Dsdl (Arity alwaysAligned lengthSoFar)
open Verif.Bls

theorem inner_of_known {known : List (TypeKey × Compiled)} {ms : List Member}
    (hk : ∀ key port m, (key, Compiled.mk port (.message m)) ∈ known → m.Plain → Means m.bitLength m.Len)
    (h : ∀ n key inner a, Member.data n (.composite key inner) a ∈ ms → ∃ port, (key, ⟨port, .message inner⟩) ∈ known) : Inner ms := by
  intro n key inner a hm hp
  obtain ⟨port, hmem⟩ := h n key inner a hm
  exact hk key port inner hmem hp

/-- All types that compiling gives, from the first to the last. -/
theorem all_means {x : Externals} {files : List (TypeKey × File)} {types : List (TypeKey × Compiled)} (ho : InOrder x files types) :
    ∀ key port m, (key, Compiled.mk port (.message m)) ∈ types → m.Plain → Means m.bitLength m.Len := by
  have : ∀ before after, types = before ++ after → ∀ key port m, (key, Compiled.mk port (.message m)) ∈ before → m.Plain → Means m.bitLength m.Len := by
    intro before
    induction before using List.reverseRecOn with
    | nil => simp
    | append_singleton before e ih =>
      intro after hs key port m hm hp
      have hs' : types = before ++ e :: after := by simpa using hs
      rcases List.mem_append.1 hm with hm | hm
      · exact ih _ hs' key port m hm hp
      · rw [← List.mem_singleton.1 hm] at hs'
        obtain ⟨name, file, _, _, hc⟩ := ho before key _ after hs'
        have hok := ok_compiles hc
        have hw := C87_messages_partial x before key file _ hc m (by simp [Compiled.messages])
        exact message_means hok hp (inner_of_known (ih _ hs') hw.known)
  exact this types [] (by simp)

/-- **C86** (the lengths of types): the set of lengths of each compiled message or response has exactly the lengths that its members can have together by the rules of DSDL. The
set of a request has these lengths before they are rounded up to bytes. Missing: types with members of delimited types, with unions that have arrays of variable
length as variants, or with unions of exactly 2^8, 2^16 or 2^32 variants. -/
theorem C86_lengths_partial (x : Externals) (files : List (TypeKey × File)) (types : List (TypeKey × Compiled)) (hd : DifferentNames files)
    (h : compile x files = .ok types) (key : TypeKey) (c : Compiled) (hm : (key, c) ∈ types) :
    match c.kind with
    | .message m => m.Plain → ∀ n, n ∈ m.bitLength.expand ↔ m.Len n
    | .service request response =>
      (request.Plain → ∀ n, request.Len n ↔ ∃ k, k ∈ request.bitLength.expand ∧ PadTo 8 k n) ∧ (response.Plain → ∀ n, n ∈ response.bitLength.expand ↔ response.Len n) := by
  obtain ⟨_, ho⟩ := C84_order x files types hd h
  have hall := all_means ho
  obtain ⟨name, file, hf, hn, hc⟩ := C84_closed x files types hd h key c hm
  have hok := ok_compiles hc
  have hw := C87_messages_partial x types key file c hc
  unfold Compiled.messages at hw
  cases hk : c.kind with
  | message m =>
    rw [hk] at hok hw
    exact fun hp => (message_means hok hp (inner_of_known hall (hw m (by simp)).known)).2
  | service req resp =>
    rw [hk] at hok hw
    refine ⟨fun hp n => ?_, fun hp => (message_means hok.2 hp (inner_of_known hall (hw resp (by simp)).known)).2⟩
    obtain ⟨hr, hraw⟩ := request_means hok.1 hp (inner_of_known hall (hw req (by simp)).known)
    exact hraw n

/-- **C86** (the alignment of fields): a field is said to be always aligned exactly if the fields before it always take a whole number of bytes. The code generator relies on
this to write the field without shifting bits. Missing: the fields before it are as in `C86_lengths_partial`. -/
theorem C86_alignment_partial (x : Externals) (files : List (TypeKey × File)) (types : List (TypeKey × Compiled)) (hd : DifferentNames files)
    (h : compile x files = .ok types) (key : TypeKey) (c : Compiled) (hm : (key, c) ∈ types) (d : Bool) (e : Option Nat) (pre post : List CField) (f : CField)
    (l : BitLengthSet) (cs : Constants) (hmem : CMessage.struct d e (pre ++ f :: post) l cs ∈ c.messages) (hp : PlainFields pre) :
    f.aligned = true ↔ ∀ n, FieldsLen pre (fun l => l = 0) n → 8 ∣ n := by
  obtain ⟨_, ho⟩ := C84_order x files types hd h
  have hall := all_means ho
  obtain ⟨name, file, hf, hn, hc⟩ := C84_closed x files types hd h key c hm
  have hok := ok_compiles hc
  have hw := C87_messages_partial x types key file c hc _ hmem
  have hflags : FlagsOk (pre ++ f :: post) := by
    unfold Compiled.messages at hmem
    cases hk : c.kind with
    | message m =>
      rw [hk] at hok hmem
      rw [← List.mem_singleton.1 hmem] at hok
      exact hok.2
    | service req resp =>
      rw [hk] at hok hmem
      rcases List.mem_cons.1 hmem with he | hmem
      · rw [← he] at hok
        exact hok.1.2
      · rw [← List.mem_singleton.1 hmem] at hok
        exact hok.2.2
  rw [hflags pre f post rfl]
  have hi : Inner (pre.map CField.member) := inner_of_known hall fun n key inner a hm => hw.known n key inner a (by
    show _ ∈ (pre ++ f :: post).map CField.member
    rw [List.map_append]
    exact List.mem_append_left _ hm)
  have hs := struct_means hp hi
  cases hl : structLen pre with
  | some l => rw [hl] at hs; exact hs.aligned
  | none =>
    rw [hl] at hs
    refine ⟨fun _ n hn => ?_, fun _ => rfl⟩
    rw [Verif.Dsdl.mem_single_iff.1 ((hs.2 n).2 hn)]
    exact Nat.dvd_zero 8

/-- **C86** (`_offset_`): after the statements `ss` of a file, `_offset_` is the set of the lengths that the members declared so far in the current section can have together. In
a union it has the lengths of the union with these variants. -/
theorem C86_offset_partial (x : Externals) (files : List (TypeKey × File)) (types : List (TypeKey × Compiled)) (hd : DifferentNames files)
    (h : compile x files = .ok types) (path : List String) (ss : List Statement) (f : FileState)
    (hr : runAll x table ss ⟨.new path, types⟩ = .ok ⟨f, types⟩) :
    ∃ part l f', (∀ s ∈ part, ¬ s.isMarker) ∧ (ss = part ∨ ∃ a, ss = a ++ .responseMarker :: part) ∧
      (Expr.identifier "_offset_").eval x table ⟨f, types⟩ = .ok (.lengths l, ⟨f', types⟩) ∧
      if part.any Statement.isUnion then
        ∃ vs : List CVariant, List.Forall₂ (Declares x types path f.constants) (part.filter Statement.isField) (vs.map CVariant.member) ∧
          ((CMessage.union false none 0 vs l []).Plain → ∀ n, n ∈ l.expand ↔ ∃ k, VariantsLen vs k ∧ n = Verif.Dsdl.widthFor (vs.length - 1) + k)
      else
        ∃ fields : List CField, List.Forall₂ (Declares x types path f.constants) (part.filter Statement.isField) (fields.map CField.member) ∧
          (PlainFields fields → ∀ n, n ∈ l.expand ↔ FieldsLen fields (fun l => l = 0) n) := by
  obtain ⟨_, ho⟩ := C84_order x files types hd h
  have hall := all_means ho
  obtain ⟨_, hi⟩ := statements_inv new_inv hr
  rw [List.nil_append] at hi
  have hok := ok_statements (f := .new path) trivial hr
  obtain ⟨part, hsplit, hpart⟩ : ∃ part, (ss = part ∨ ∃ a, ss = a ++ .responseMarker :: part) ∧ PartInv x types path part f.constants f.deprecated f.state.part := by
    have hs := hi.sections
    cases hreq : f.state.request with
    | none => rw [hreq] at hs; exact ⟨ss, .inl rfl, hs⟩
    | some req =>
      rw [hreq] at hs
      obtain ⟨a, b, h1, _, _, _, h2⟩ := hs
      exact ⟨b, .inr ⟨a, h1⟩, h2⟩
  have hany : part.any Statement.isUnion = f.state.part.isUnion := by
    have hu := hpart.union
    rw [Bool.eq_iff_iff, List.any_eq_true]
    constructor
    · rintro ⟨s, hs, hsu⟩
      by_contra hne
      rw [if_neg hne, List.length_eq_zero_iff, List.filter_eq_nil_iff] at hu
      exact hu s hs hsu
    · intro he
      rw [if_pos he] at hu
      obtain ⟨s, hs⟩ := List.length_eq_one_iff.1 hu
      have : s ∈ part.filter Statement.isUnion := by rw [hs]; simp
      exact ⟨s, List.mem_filter.1 this⟩
  refine ⟨part, f.state.useOffset.offset, { f with state := f.state.useOffset }, hpart.marker, hsplit, by simp [Expr.eval, evalIdentifier], ?_⟩
  rw [hany]
  rcases offset_ok hok with ⟨fields, h1, h2, h3⟩ | ⟨vs, h1, h2, h3⟩
  · rw [if_neg (by simp [h1])]
    refine ⟨fields, h2 ▸ hpart.members, fun hp => ?_⟩
    rw [h3]
    exact (struct_means hp (inner_of_known hall fun n key inner a hm => hpart.known n key inner a (h2 ▸ hm))).2
  · rw [if_pos h1]
    refine ⟨vs, h2 ▸ hpart.members, fun hp => ?_⟩
    rw [CMessage.Plain] at hp
    rw [h3]
    obtain ⟨p1, p2, p3, p4, p5, p6⟩ := hp
    exact (union_means p1 p2 p3 p4 p5 p6 (inner_of_known hall fun n key inner a hm => hpart.known n key inner a (h2 ▸ hm))).2

theorem eval_fixed {x : Externals} {e : Expr} {v : Value} {n : Nat} {s : ScalarTy} {cx cx' : Cx (List (TypeKey × Compiled))}
    (he : e.eval x table cx = .ok (v, cx')) (hv : arrayLength v = .ok n) : (Expr.arrayType s .fixed e).eval x table cx = .ok (.type (.fixedArray s n), cx') := by
  rw [Expr.eval, he]
  simp only [Outcome.bind, hv, arrayType]

theorem eval_bit_length {x : Externals} {e : Expr} {t : Ty} {cx cx' : Cx (List (TypeKey × Compiled))} (he : e.eval x table cx = .ok (.type t, cx')) :
    (Expr.attribute e "_bit_length_").eval x table cx = (t.bitLengthSet table cx').bind fun r => .ok (.lengths r.1, r.2) := by
  rw [Expr.eval, he]
  simp only [Outcome.bind, evalAttribute, typeAttribute, if_true]

theorem arrayLength_natCast {k : Nat} (hk : k < 2 ^ 64) : arrayLength (.rational (k : ℚ)) = .ok k := by
  unfold arrayLength
  dsimp only
  rw [if_pos, Rat.num_natCast, Int.toNat_natCast]
  simp only [Bool.and_eq_true, Rat.num_natCast]
  exact ⟨⟨by simp [isInteger], decide_eq_true (Int.natCast_nonneg k)⟩, decide_eq_true (by omega)⟩

/-- **C86** (`_bit_length_`): in an expression, `T._bit_length_` is the set of the lengths of values of the type `T`, and `T[k]._bit_length_` that of arrays of `k` elements. Missing:
types as in `C86_lengths_partial`, and arrays of variable length. -/
theorem C86_attribute_partial (x : Externals) (files : List (TypeKey × File)) (types : List (TypeKey × Compiled)) (hd : DifferentNames files)
    (h : compile x files = .ok types) (f : FileState) (s : ScalarTy) (r : RScalar) (hs : ScalarMeans types f.path s r) (hp : r.Plain) :
    (∃ l, (Expr.attribute (.scalarType s) "_bit_length_").eval x table ⟨f, types⟩ = .ok (.lengths l, ⟨f, types⟩) ∧ ∀ n, n ∈ l.expand ↔ r.Len n) ∧
    ∀ (e : Expr) (k : Nat) (f' : FileState), e.eval x table ⟨f, types⟩ = .ok (.rational k, ⟨f', types⟩) → f'.path = f.path → k < 2 ^ 64 →
      ∃ l, (Expr.attribute (.arrayType s .fixed e) "_bit_length_").eval x table ⟨f, types⟩ = .ok (.lengths l, ⟨f', types⟩) ∧ ∀ n, n ∈ l.expand ↔ SumOf r.Len k n := by
  obtain ⟨hperm, ho⟩ := C84_order x files types hd h
  have hall := all_means ho
  have hnd : (types.map fun e => e.1.folded).Nodup := hperm.nodup_iff.2 ((different_iff files).1 hd)
  have hr : Means r.size r.Len := by
    refine scalar_means hp fun key inner he => ?_
    cases s with
    | prim p => cases hs.symm.trans he
    | void b => cases hs.symm.trans he
    | versioned k =>
      obtain ⟨port, m, h1, h2⟩ := hs
      rw [h2] at he
      cases he
      exact hall _ port _ h1
  have hb : ∀ f' : FileState, f'.path = f.path → s.bitLengthSet table ⟨f', types⟩ = .ok (r.size, ⟨f', types⟩) := by
    intro f' hpath
    cases s with
    | prim p => cases hs; rfl
    | void b => cases hs; rfl
    | versioned k =>
      obtain ⟨port, m, h1, rfl⟩ := hs
      have ht := table_of_mem hnd h1
      simp only [ScalarTy.bitLengthSet, typeByKey, canonicalKey_eq, hpath, ht, Outcome.bind]
      rfl
  constructor
  · refine ⟨r.size, ?_, hr.2⟩
    simp [Expr.eval, Outcome.bind, evalAttribute, typeAttribute, Ty.bitLengthSet, hb f rfl]
  · intro e k f' he hpath hk
    refine ⟨r.size.repeatTimes k, ?_, (hr.repeated k).2⟩
    have hlen := arrayLength_natCast hk
    rw [eval_bit_length (eval_fixed he hlen), Ty.bitLengthSet, hb f' hpath]
    rfl

/-! ### Cases -/

/-- `ArityFits` as a program. -/
def arityB : Arity → Bool
  | .var k => decide (k < 2 ^ 64)
  | _ => true

/-- Whether it is not an array of variable length. -/
def notVarB : Arity → Bool
  | .var _ => false
  | _ => true

/-- Whether the number of variants is one that `Plain` allows. -/
def countB (n : Nat) : Bool := decide (0 < n) && decide (n < 2 ^ 64) && n != 2 ^ 8 && n != 2 ^ 16 && n != 2 ^ 32

mutual
/-- `RScalar.Plain` as a program, for the examples. -/
def RScalar.plainB : RScalar → Bool
  | .prim _ => true
  | .void _ => true
  | .composite _ m => m.extent.isNone && m.plainB
/-- `PlainFields` as a program. -/
def plainFieldsB : List CField → Bool
  | [] => true
  | .padding _ _ :: rest => plainFieldsB rest
  | .data _ s a _ :: rest => s.plainB && arityB a && plainFieldsB rest
/-- `PlainVariants` as a program. -/
def plainVariantsB : List CVariant → Bool
  | [] => true
  | .mk _ s a :: rest => s.plainB && notVarB a && plainVariantsB rest
/-- `CMessage.Plain` as a program. -/
def CMessage.plainB : CMessage → Bool
  | .struct _ _ fields _ _ => plainFieldsB fields
  | .union _ _ _ variants _ _ => plainVariantsB variants && countB variants.length
end

mutual
theorem RScalar.plain_of (s : RScalar) (h : s.plainB = true) : s.Plain := by
  cases s with
  | prim => simp [RScalar.Plain]
  | void => simp [RScalar.Plain]
  | composite key m =>
    rw [RScalar.plainB, Bool.and_eq_true] at h
    rw [RScalar.Plain]
    exact ⟨by simpa using h.1, m.plain_of h.2⟩
theorem plainFields_of : ∀ (fs : List CField), plainFieldsB fs = true → PlainFields fs
  | [], _ => by simp [PlainFields]
  | .padding _ _ :: rest, h => by
    rw [plainFieldsB] at h
    rw [PlainFields]
    exact plainFields_of rest h
  | .data _ s a _ :: rest, h => by
    rw [plainFieldsB, Bool.and_eq_true, Bool.and_eq_true] at h
    rw [PlainFields]
    refine ⟨s.plain_of h.1.1, ?_, plainFields_of rest h.2⟩
    cases a with
    | scalar => trivial
    | fixed k => trivial
    | var k => exact of_decide_eq_true (p := k < 2 ^ 64) h.1.2
theorem plainVariants_of : ∀ (vs : List CVariant), plainVariantsB vs = true → PlainVariants vs
  | [], _ => by simp [PlainVariants]
  | .mk _ s a :: rest, h => by
    rw [plainVariantsB, Bool.and_eq_true, Bool.and_eq_true] at h
    rw [PlainVariants]
    refine ⟨s.plain_of h.1.1, ?_, plainVariants_of rest h.2⟩
    cases a with
    | scalar => exact fun _ he => by cases he
    | fixed k => exact fun _ he => by cases he
    | var k => cases h.1.2
theorem CMessage.plain_of (m : CMessage) (h : m.plainB = true) : m.Plain := by
  cases m with
  | struct d e fields l cs => rw [CMessage.plainB] at h; rw [CMessage.Plain]; exact plainFields_of fields h
  | union d e b vs l cs =>
    rw [CMessage.plainB, Bool.and_eq_true] at h
    rw [CMessage.Plain]
    have hc := h.2
    simp only [countB, Bool.and_eq_true, decide_eq_true_iff, bne_iff_ne] at hc
    exact ⟨plainVariants_of vs h.1, hc.1.1.1.1, hc.1.1.1.2, hc.1.1.2, hc.1.2, hc.2⟩
end

/-- What holds for the types that compiling gives, checked by evaluation. -/
theorem compile_of_check {x : Externals} {files : List (TypeKey × File)} {check : List (TypeKey × Compiled) → Bool}
    (h : (match compile x files with | .ok types => check types | _ => false) = true) : ∃ types, compile x files = .ok types ∧ check types = true := by
  cases hc : compile x files with
  | error => rw [hc] at h; cases h
  | panic => rw [hc] at h; cases h
  | ok types => rw [hc] at h; exact ⟨types, rfl, h⟩

/-- A struct that begins with three bits and has a member that is a union: `uint3 a`, `Q.1.0 b`, `uint8[<=2] c`. -/
def lenFiles : List (TypeKey × File) :=
  [(demoKey "P", fileOf [.field (.scalar (.prim (uintTy 3))) "a", .directive "assert" (some (.binary .equal (.identifier "_offset_") (.set [.number 3]))),
      .field (.scalar (.versioned (demoKey "Q"))) "b", .field (.array (.prim (uintTy 8)) .inclusive (.number 2)) "c",
      .directive "assert" (some (.binary .equal (.identifier "_offset_") (.set [.number 40, .number 48, .number 56, .number 64]))), .directive "sealed" none]),
    (demoKey "Q", fileOf [.directive "union" none, .field (.scalar (.prim (uintTy 16))) "x", .field (.array (.prim (uintTy 4)) .fixed (.number 5)) "y",
      .directive "sealed" none])]

-- Both types are as in the theorems; the lengths and the alignment of the fields are those of the rules.
example : DifferentNames lenFiles ∧ ∃ types, compile demoX lenFiles = .ok types ∧ (match types with
    | [(_, ⟨_, .message q⟩), (_, ⟨_, .message (.struct d e fs l cs)⟩)] =>
      q.plainB && (CMessage.struct d e fs l cs).plainB && (q.bitLength.expand == [24, 32] || q.bitLength.expand == [32, 24]) &&
      fs.map CField.aligned == [true, false, true] && l.expand.all (fun n => [40, 48, 56, 64].contains n) && [40, 48, 56, 64].all fun n => l.expand.contains n
    | _ => false) = true :=
  ⟨by simp [lenFiles, DifferentNames, SameName]; decide +kernel, compile_of_check (by decide +kernel)⟩

-- `Q.1.0[2]._bit_length_` in a file of the package `ns`.
example : ∃ types, compile demoX lenFiles = .ok types ∧
    (match (Expr.attribute (.arrayType (.versioned ⟨[], "Q", 1, 0⟩) .fixed (.number 2)) "_bit_length_").eval demoX table ⟨.new ["ns"], types⟩ with
    | .ok (.lengths l, _) => l.expand.all (fun n => [48, 56, 64].contains n) && [48, 56, 64].all fun n => l.expand.contains n
    | _ => false) = true :=
  compile_of_check (by decide +kernel)

/-- **C86 does not hold** for unions with arrays of variable length: the number of elements of the array is left out. A value of the type `@union`, `uint8[<=1] a`, `uint8 b` has 24
bits if it is an array with one element. The lengths that the compiler finds are 8 and 16 bits. -/
theorem C86_counterexample_union : ∃ c, Compiles demoX [] (demoKey "T")
    (fileOf [.directive "union" none, .field (.array (.prim (uintTy 8)) .inclusive (.number 1)) "a", .field (.scalar (.prim (uintTy 8))) "b", .directive "sealed" none]) c ∧
    ∃ m, c.kind = .message m ∧ m.Len 24 ∧ ∀ n ∈ m.bitLength.expand, n ≤ 16 := by
  obtain ⟨c, hc, h⟩ : ∃ c, Compiles demoX [] (demoKey "T") (fileOf [.directive "union" none, .field (.array (.prim (uintTy 8)) .inclusive (.number 1)) "a",
      .field (.scalar (.prim (uintTy 8))) "b", .directive "sealed" none]) c ∧ (match c.kind with
      | .message (.union _ _ _ [.mk _ (.prim p) (.var 1), .mk _ _ _] l _) => p.bits == 8 && l.expand.all fun n => n ≤ 16
      | _ => false) = true := compiles_of_check (by decide +kernel)
  refine ⟨c, hc, ?_⟩
  split at h
  · next d e b n1 p n2 s2 a2 l cs hk =>
    simp only [Bool.and_eq_true, beq_iff_eq, List.all_eq_true, decide_eq_true_iff] at h
    refine ⟨_, hk, ?_, h.2⟩
    rw [CMessage.Len]
    refine ⟨16, ?_, by decide, (by decide : Verif.Dsdl.widthFor 1 + 16 ≤ 24), (by decide : 24 < Verif.Dsdl.widthFor 1 + 16 + 8)⟩
    rw [VariantsLen]
    refine .inl ⟨1, 8, Nat.le_refl _, ⟨[8], rfl, fun m hm => ?_, rfl⟩, by decide⟩
    rw [RScalar.Len, h.1]
    simpa using hm
  · cases h

/-- **C86 does not hold** for members of delimited types: each value has its length before it, but not in an array, and it is taken to have the length that this version of its
type has, and not that of another version. `I.1.0` has 8 bits and an extent of 64 bits. An array of two of them may have 64 to 192 bits. The
compiler finds 16 bits. -/
theorem C86_counterexample_delimited : ∃ types, compile demoX
      [(demoKey "T", fileOf [.field (.array (.versioned (demoKey "I")) .fixed (.number 2)) "a", .directive "sealed" none]),
        (demoKey "I", fileOf [.field (.scalar (.prim (uintTy 8))) "a", .directive "extent" (some (.number 64))])] = .ok types ∧
    ∃ key port m, (key, Compiled.mk port (.message m)) ∈ types ∧ key = demoKey "T" ∧ m.bitLength.expand = [16] ∧ m.Len 64 ∧ m.Len 192 ∧ ¬ m.Len 16 := by
  obtain ⟨types, hc, h⟩ : ∃ types, compile demoX
      [(demoKey "T", fileOf [.field (.array (.versioned (demoKey "I")) .fixed (.number 2)) "a", .directive "sealed" none]),
        (demoKey "I", fileOf [.field (.scalar (.prim (uintTy 8))) "a", .directive "extent" (some (.number 64))])] = .ok types ∧ (match types with
      | [_, (key, ⟨_, .message (.struct _ _ [.data _ (.composite _ i) (.fixed 2) _] l _)⟩)] => key == demoKey "T" && i.extent == some 64 && l.expand == [16]
      | _ => false) = true := compile_of_check (by decide +kernel)
  refine ⟨types, hc, ?_⟩
  split at h
  · next e0 key port d e n1 k1 i al l cs =>
    simp only [Bool.and_eq_true, beq_iff_eq] at h
    have two : ∀ k, 8 ∣ k → k ≤ 64 → (CMessage.struct d e [.data n1 (.composite k1 i) (.fixed 2) al] l cs).Len (2 * (32 + k)) := by
      intro k hk h64
      rw [CMessage.Len]
      refine ⟨2 * (32 + k), ?_, by omega, Nat.le_refl _, by omega⟩
      rw [FieldsLen, FieldsLen]
      refine ⟨0, 0, 2 * (32 + k), rfl, ⟨Nat.dvd_zero _, Nat.le_refl _, (by decide : 0 < 0 + 8)⟩, ⟨[32 + k, 32 + k], rfl, fun m hm => ?_, by simp; omega⟩, by omega⟩
      rw [RScalar.Len, h.1.2]
      exact ⟨k, hk, h64, by simpa using hm⟩
    refine ⟨key, port, .struct d e [.data n1 (.composite k1 i) (.fixed 2) al] l cs, by simp, h.1.1, h.2, two 0 (by decide) (by decide), two 64 (by decide) (by decide), ?_⟩
    intro hl
    rw [CMessage.Len] at hl
    obtain ⟨k, hk, _, hle, _⟩ := hl
    rw [FieldsLen, FieldsLen] at hk
    obtain ⟨l0, p, t, _, _, ht, rfl⟩ := hk
    obtain ⟨ms, hlen, hall, rfl⟩ := ht
    match ms, hlen with
    | [a, b], _ =>
      have ha := hall a (by simp)
      rw [RScalar.Len, h.1.2] at ha
      obtain ⟨k, _, _, rfl⟩ := ha
      simp at hle
      omega
  · cases h

/-- **C86 does not hold** for requests: the length is not rounded up to bytes. -/
theorem C86_counterexample_request : ∃ c, Compiles demoX [] (demoKey "T")
    (fileOf [.field (.scalar (.prim (uintTy 1))) "a", .directive "sealed" none, .responseMarker, .field (.scalar (.prim (uintTy 1))) "a", .directive "sealed" none]) c ∧
    (match c.kind with | .service req resp => req.bitLength.expand == [1] && resp.bitLength.expand == [8] | _ => false) = true :=
  compiles_of_check (by decide +kernel)

/-- **C86 does not hold** for `_bit_length_` of an array of variable length: the number of elements is left out. `uint8[<=2]` has up to 24 bits as a field, but `_bit_length_` has
only 0, 8 and 16. -/
theorem C86_counterexample_attribute : TypeLen (RScalar.prim (uintTy 8)).Len (.var 2) 24 ∧
    (match (Expr.attribute (.arrayType (.prim (uintTy 8)) .inclusive (.number 2)) "_bit_length_").eval demoX table ⟨.new [], []⟩ with
    | .ok (.lengths l, _) => l.expand.all (fun n => [0, 8, 16].contains n)
    | _ => false) = true := by
  refine ⟨⟨2, 16, Nat.le_refl _, ⟨[8, 8], rfl, fun m hm => ?_, rfl⟩, by decide⟩, by decide +kernel⟩
  rw [RScalar.Len]
  have h8 : m = 8 := by simpa using hm
  rw [h8]
  decide

end Verif.Front
