import Verif.Front.Gen

/-!
C88: the types that code is generated for are the compiled types, so what C67-C71 say about generated code holds for DSDL files.
-/

namespace Verif.Front

open Verif.Dsdl (Arity Fields Variants Message Val Same SameResult)
open Verif.Enc

/-- The messages of a type, each with whether it is a request. -/
def Compiled.roles (c : Compiled) : List (Bool × CMessage) :=
  match c.kind with
  | .message m => [(false, m)]
  | .service request response => [(true, request), (false, response)]

theorem roles_messages {c : Compiled} {r : Bool} {m : CMessage} (h : (r, m) ∈ c.roles) : m ∈ c.messages := by
  unfold Compiled.roles at h
  unfold Compiled.messages
  cases hk : c.kind with
  | message m' => rw [hk] at h; simp at h; simp [h.2]
  | service a b => rw [hk] at h; simp at h; rcases h with ⟨_, rfl⟩ | ⟨_, rfl⟩ <;> simp

theorem ok_roles {x : Externals} {known : List (TypeKey × Compiled)} {key : TypeKey} {file : File} {c : Compiled} (h : Compiles x known key file c) {r : Bool} {m : CMessage}
    (hm : (r, m) ∈ c.roles) : MsgOk r m := by
  have hok := ok_compiles h
  unfold Compiled.roles at hm
  cases hk : c.kind with
  | message m' => rw [hk] at hm hok; simp at hm; rw [hm.1, hm.2]; exact hok
  | service a b => rw [hk] at hm hok; simp at hm; rcases hm with ⟨rfl, rfl⟩ | ⟨rfl, rfl⟩; exacts [hok.1, hok.2]

/-- **C88** (lengths): the type that code is generated for has the lengths and the extent of the compiled type. If it is a struct, the fields that are said to be always
aligned are those that the compiler marked; if it is a union, the number of the variant has as many bits as the compiler said. -/
theorem C88_agrees (x : Externals) (files : List (TypeKey × File)) (types : List (TypeKey × Compiled)) (hd : DifferentNames files)
    (h : compile x files = .ok types) (key : TypeKey) (c : Compiled) (hm : (key, c) ∈ types) (r : Bool) (m : CMessage) (hr : (r, m) ∈ c.roles)
    (en : TypeKey → Bool) (asEnum : Bool) (M : Message) (hg : m.generate en asEnum r = .ok M) :
    M.bitLength = m.bitLength ∧ M.extent = m.extent ∧ M.request = r ∧
    match m, M with
    | .struct _ _ fields _ _, .struct _ _ generated => flagsFrom generated none = fields.map CField.aligned
    | .union _ _ bits _ _ _, .union _ _ generated => generated.tagBits = bits
    | _, _ => True := by
  obtain ⟨_, ho⟩ := C84_order x files types hd h
  have hall := all_agree ho
  obtain ⟨name, file, hf, hn, hc⟩ := C84_closed x files types hd h key c hm
  have hok := ok_roles hc hr
  have hw := C87_messages_partial x types key file c hc m (roles_messages hr)
  have hi := agreesIn_of_known hall hw.known
  obtain ⟨e1, e2, e3⟩ := message_gen hok hi hg
  refine ⟨e1, e2, e3, ?_⟩
  cases m with
  | struct d e fields l cs =>
    cases M with
    | struct e' r' FS =>
      rw [CMessage.generate] at hg
      split at hg
      · obtain ⟨_, _, _, _, _, _, _, he, _⟩ := enum_gen hg
        cases he
      · obtain ⟨FS', h1, h2⟩ := Outcome.bind_ok hg
        cases h2
        exact (fields_gen none h1 hi).2 [] rfl hok.2
    | _ => trivial
  | union d e bits vs l cs =>
    cases M with
    | union e' r' VS =>
      rw [CMessage.generate] at hg
      split at hg
      · cases hg
      · obtain ⟨VS', h1, h2⟩ := Outcome.bind_ok hg
        cases h2
        show VS.tagBits = bits
        rw [Variants.tagBits, (variants_gen h1 hi).2]
        exact hok.2.symm
    | _ => trivial

/-- **C88** (missing bytes are zeros, from DSDL files to generated code): for every type in DSDL files that compile, the generated `deserialize` gives the same result for bytes
as for these bytes with zeros after them, unless they end inside a delimited composite. -/
theorem C88_zero_extension (x : Externals) (files : List (TypeKey × File)) (types : List (TypeKey × Compiled)) (hd : DifferentNames files) (hok : FilesOk files)
    (h : compile x files = .ok types) (key : TypeKey) (c : Compiled) (hm : (key, c) ∈ types) (r : Bool) (m : CMessage) (hr : (r, m) ∈ c.roles)
    (en : TypeKey → Bool) (asEnum : Bool) (M : Message) (hg : m.generate en asEnum r = .ok M) (bytes : List Byte) (n : Nat) :
    (∃ c, M.deserialize (ReadCursor.new bytes) = some (.error .delimitedLength, c)) ∨
    SameResult (M.deserialize (ReadCursor.new bytes)) (M.deserialize (ReadCursor.new (bytes ++ List.replicate n 0))) := by
  obtain ⟨_, ho⟩ := C84_order x files types hd h
  obtain ⟨name, file, hf, hn, hc⟩ := C84_closed x files types hd h key c hm
  exact Verif.Dsdl.C70_zero_extension M (compiled_valid hok hf hc (all_valid hok ho) (roles_messages hr) en asEnum r M hg) bytes n

theorem enumValues_ok {bits : Nat} : ∀ {cs : Constants} {used zs : List ℤ}, enumValues bits cs used = .ok zs → used.Nodup →
    zs.Nodup ∧ ∃ new, zs = used ++ new ∧ List.Forall₂ (fun (c : String × Constant) z => (∃ mode, c.2.ty = .uint bits mode) ∧ c.2.value = .int z) cs new
  | [], used, zs, h, hu => by cases h; exact ⟨hu, [], by simp, .nil⟩
  | (n, c) :: cs, used, zs, h, hu => by
    unfold enumValues at h
    split at h
    · next hc =>
      split at h
      · next z hz =>
        split at h
        · cases h
        · next hnot =>
          obtain ⟨h1, new, h2, h3⟩ := enumValues_ok h (List.nodup_append.2 ⟨hu, by simp, fun a ha b hb => by
            rw [List.mem_singleton.1 hb]
            rintro rfl
            exact hnot (by simpa using ha)⟩)
          refine ⟨h1, z :: new, by simp [h2], .cons ⟨?_, hz⟩ h3⟩
          unfold enumConstant at hc
          split at hc
          · next b mode hty => exact ⟨mode, by rw [hty, beq_iff_eq.1 hc]⟩
          · cases hc
      · cases h
    · cases h

theorem enumDiscriminants_ok : ∀ {zs : List ℤ} {ds : List Nat}, enumDiscriminants zs = .ok ds → zs = ds.map Int.ofNat
  | [], ds, h => by cases h; rfl
  | z :: zs, ds, h => by
    unfold enumDiscriminants at h
    split at h
    · next hz =>
      obtain ⟨ds', h1, h2⟩ := Outcome.bind_ok h
      cases h2
      rw [enumDiscriminants_ok h1, List.map_cons, Int.ofNat_eq_natCast, Int.toNat_of_nonneg hz.1]
    · cases h

/-- **C88** (enums): a type for which an enum is generated is a struct with one field, an unsigned integer. The enum has one variant for each constant, in order, with the value
of the constant; the values are different and fit in the field. Each variant is read back after it was written. -/
theorem C88_enum (x : Externals) (files : List (TypeKey × File)) (types : List (TypeKey × Compiled)) (hd : DifferentNames files) (hok : FilesOk files)
    (h : compile x files = .ok types) (key : TypeKey) (c : Compiled) (hm : (key, c) ∈ types) (r : Bool) (m : CMessage) (hr : (r, m) ∈ c.roles)
    (en : TypeKey → Bool) (M : Message) (hg : m.generate en true r = .ok M) :
    ∃ name bits mode values, m.members = [.data name (.prim (.uint bits mode)) .scalar] ∧ M = .enum m.extent r bits values ∧
      values.Nodup ∧ (∀ d ∈ values, d < 2 ^ bits) ∧ List.Forall₂ (fun (e : String × Constant) (d : Nat) => e.2.value = .int d) m.constants values ∧
      ∀ d ∈ values, ∀ buf extra : List Byte, 64 ≤ 8 * buf.length →
        ∃ cur rest, M.serialize (.tag d) (WriteCursor.new buf) = some cur ∧ M.deserialize (ReadCursor.new (cur.bytes ++ extra)) = some (.ok (.tag d), rest) := by
  obtain ⟨_, ho⟩ := C84_order x files types hd h
  obtain ⟨name, file, hf, hn, hc⟩ := C84_closed x files types hd h key c hm
  have hvalid := compiled_valid hok hf hc (all_valid hok ho) (roles_messages hr) en true r M hg
  have hcs := (C83_constants x types key file c hc m (roles_messages hr)).2
  cases m with
  | union d e bits vs l cs => rw [CMessage.generate, if_pos rfl] at hg; cases hg
  | struct d e fields l cs =>
    rw [CMessage.generate, if_pos rfl] at hg
    obtain ⟨fname, bits, mode, al, zs, ds, rfl, rfl, h1, h2⟩ := enum_gen hg
    have hz := enumDiscriminants_ok h2
    obtain ⟨hnd, new, hnew, hf2⟩ := enumValues_ok h1 List.nodup_nil
    rw [List.nil_append] at hnew
    rw [hz] at hnd hnew
    rw [← hnew, List.forall₂_map_right_iff] at hf2
    have hlt : ∀ d ∈ ds, d < 2 ^ bits := by
      intro d hd
      obtain ⟨e, he, ⟨md, hty⟩, hval⟩ := forall₂_right hf2 d hd
      obtain ⟨_, hrep, _⟩ := hcs e he
      rw [hty, hval] at hrep
      rcases hrep with ⟨n, _, hn, hlt⟩ | ⟨h8, ch, _, hn, hlt⟩
      · injection hn with hn
        rw [Int.ofNat_eq_natCast] at hn
        rwa [Int.ofNat.inj hn]
      · injection hn with hn
        rw [Int.ofNat.inj hn, h8]
        omega
    rw [Message.valid] at hvalid
    have hbits := of_decide_eq_true hvalid
    refine ⟨fname, bits, mode, ds, rfl, rfl, hnd.of_map, hlt, hf2.imp fun _ _ he => he.2, ?_⟩
    intro d hd buf extra hbuf
    have hgood : (Message.enum e r bits ds).good = true := by
      rw [Message.good, Bool.and_eq_true, List.all_eq_true]
      exact ⟨decide_eq_true hbits, fun d hd => decide_eq_true (hlt d hd)⟩
    have hhas : (Message.enum e r bits ds).has (.tag d) = true := by rw [Message.has]; exact decide_eq_true hd
    have hfits : (Message.enum e r bits ds).fits (.tag d) = true := by simp [Message.fits]
    have hsafe : (Message.enum e r bits ds).safe (.tag d) = true := by simp [Message.safe]
    have hlen : ((Message.enum e r bits ds).bits (.tag d)).length ≤ 64 := by
      rw [Message.bits]
      simp only [bitsOf, List.length_map, List.length_range]
      omega
    obtain ⟨cur, hcur, _⟩ := Verif.Dsdl.C67_wire_format_partial _ _ hgood hhas hfits (by omega) buf (by omega)
    have hsize := Verif.Dsdl.C67_size_partial _ _ hgood hhas hfits
    obtain ⟨w, rest, h3, h4⟩ := Verif.Dsdl.C68_round_trip_partial _ _ hgood hhas hfits hsafe (by omega) buf extra (by omega) cur hcur
    refine ⟨cur, rest, hcur, ?_⟩
    cases h4
    exact h3

/-! ### The members -/

/-- The primitive type of a member in the generated code: the same bits, and for unsigned integers the same cast mode. -/
inductive PrimFor : Prim → Verif.Dsdl.Prim → Prop
  | boolean : PrimFor .boolean .boolean
  | utf8 : PrimFor .utf8 .utf8
  | byte : PrimFor .byte .byte
  | int {n} : PrimFor (.int n) (.int n)
  | saturated {n} : PrimFor (.uint n .saturated) (.uint n true)
  | truncated {n} : PrimFor (.uint n .truncated) (.uint n false)
  | float16 {c} : PrimFor (.float16 c) .float16
  | float32 {c} : PrimFor (.float32 c) .float32
  | float64 {c} : PrimFor (.float64 c) .float64

mutual
/-- The type of an element in the generated code. `en` are the types for which enums are generated. -/
inductive ScalarFor (en : TypeKey → Bool) : RScalar → Verif.Dsdl.Scalar → Prop
  | prim {p P} : PrimFor p P → ScalarFor en (.prim p) (.prim P)
  | composite {key m M} : MessageFor en (en key) m M → ScalarFor en (.composite key m) (.composite M)
/-- The fields of a struct in the generated code: one for each field, in order. -/
inductive FieldsFor (en : TypeKey → Bool) : List CField → Fields → Prop
  | nil : FieldsFor en [] .nil
  | padding {n al fs FS} : FieldsFor en fs FS → FieldsFor en (.padding n al :: fs) (.padding n FS)
  | data {n s a al S fs FS} : ScalarFor en s S → FieldsFor en fs FS → FieldsFor en (.data n s a al :: fs) (.data S a FS)
/-- The variants of a union in the generated code: one for each variant, in order. -/
inductive VariantsFor (en : TypeKey → Bool) : List CVariant → Variants → Prop
  | nil : VariantsFor en [] .nil
  | cons {n s a S vs VS} : ScalarFor en s S → VariantsFor en vs VS → VariantsFor en (.mk n s a :: vs) (.cons S a VS)
/-- A struct becomes a struct or, if this is asked for, an enum of the constants; a union becomes a union. -/
inductive MessageFor (en : TypeKey → Bool) : Bool → CMessage → Message → Prop
  | struct {d e fields l cs r FS} : FieldsFor en fields FS → MessageFor en false (.struct d e fields l cs) (.struct e r FS)
  | union {d e bits vs l cs r VS} : VariantsFor en vs VS → MessageFor en false (.union d e bits vs l cs) (.union e r VS)
  | enum {d e n bits mode al l cs r values} : List.Forall₂ (fun (c : String × Constant) (z : Nat) => (∃ mode, c.2.ty = .uint bits mode) ∧ c.2.value = .int z) cs values →
      MessageFor en true (.struct d e [.data n (.prim (.uint bits mode)) .scalar al] l cs) (.enum e r bits values)
end

theorem primFor (p : Prim) : PrimFor p p.generated := by
  cases p with
  | uint n c => cases c <;> constructor
  | _ => constructor

mutual
theorem scalarFor {en : TypeKey → Bool} : ∀ {s : RScalar} {S}, s.generate en = .ok S → ScalarFor en s S
  | .prim p, S, h => by rw [RScalar.generate] at h; cases h; exact .prim (primFor p)
  | .void _, S, h => by rw [RScalar.generate] at h; cases h
  | .composite key m, S, h => by
    rw [RScalar.generate] at h
    obtain ⟨M, h1, h2⟩ := Outcome.bind_ok h
    cases h2
    exact .composite (C88_members h1)
theorem fieldsFor {en : TypeKey → Bool} : ∀ {fs : List CField} {FS}, generateFields en fs = .ok FS → FieldsFor en fs FS
  | [], FS, h => by rw [generateFields] at h; cases h; exact .nil
  | .padding n al :: rest, FS, h => by
    rw [generateFields] at h
    obtain ⟨fs, h1, h2⟩ := Outcome.bind_ok h
    cases h2
    exact .padding (fieldsFor h1)
  | .data n s a al :: rest, FS, h => by
    rw [generateFields] at h
    obtain ⟨S, h1, h2⟩ := Outcome.bind_ok h
    obtain ⟨fs, h3, h4⟩ := Outcome.bind_ok h2
    cases h4
    exact .data (scalarFor h1) (fieldsFor h3)
theorem variantsFor {en : TypeKey → Bool} : ∀ {vs : List CVariant} {VS}, generateVariants en vs = .ok VS → VariantsFor en vs VS
  | [], FS, h => by rw [generateVariants] at h; cases h; exact .nil
  | .mk n s a :: rest, FS, h => by
    rw [generateVariants] at h
    obtain ⟨S, h1, h2⟩ := Outcome.bind_ok h
    obtain ⟨fs, h3, h4⟩ := Outcome.bind_ok h2
    cases h4
    exact .cons (scalarFor h1) (variantsFor h3)
/-- **C88** (members): the generated type has the members of the compiled type, in order, with the same types, cast modes and arities, at all depths. -/
theorem C88_members {en : TypeKey → Bool} {asEnum r : Bool} : ∀ {m : CMessage} {M : Message}, m.generate en asEnum r = .ok M → MessageFor en asEnum m M
  | .struct d e fields l cs, M, h => by
    rw [CMessage.generate] at h
    split at h
    · next hb =>
      subst hb
      obtain ⟨name, bits, mode, al, zs, ds, rfl, rfl, h1, h2⟩ := enum_gen h
      have hz := enumDiscriminants_ok h2
      obtain ⟨-, new, hnew, hf2⟩ := enumValues_ok h1 List.nodup_nil
      rw [List.nil_append] at hnew
      rw [← hnew, hz, List.forall₂_map_right_iff] at hf2
      exact .enum hf2
    · next hb =>
      obtain ⟨FS, h1, h2⟩ := Outcome.bind_ok h
      cases h2
      rw [Bool.not_eq_true] at hb
      subst hb
      exact .struct (fieldsFor h1)
  | .union d e bits vs l cs, M, h => by
    rw [CMessage.generate] at h
    split at h
    · cases h
    · next hb =>
      obtain ⟨FS, h1, h2⟩ := Outcome.bind_ok h
      cases h2
      rw [Bool.not_eq_true] at hb
      subst hb
      exact .union (variantsFor h1)
end

theorem enumValues_done {bits : Nat} : ∀ {cs : Constants} {values : List Nat} (used : List ℤ),
    List.Forall₂ (fun (c : String × Constant) (z : Nat) => (∃ mode, c.2.ty = .uint bits mode) ∧ c.2.value = .int z) cs values → (used ++ values.map Int.ofNat).Nodup →
    enumValues bits cs used = .ok (used ++ values.map Int.ofNat)
  | [], _, used, .nil, _ => by simp [enumValues]
  | (n, c) :: cs, z :: zs, used, .cons ⟨⟨mode, h1⟩, h2⟩ h3, hn => by
    have hc : enumConstant bits c = true := by simp only at h1; rw [enumConstant, h1]; simp
    have hu : used.contains (z : ℤ) = false := by
      rw [Bool.eq_false_iff]
      intro hc
      rw [List.contains_iff_mem] at hc
      exact (List.nodup_append.1 hn).2.2 _ hc _ (by simp) rfl
    simp only at h2
    rw [enumValues, if_pos hc, h2]
    simp only [hu, Bool.false_eq_true, if_false]
    rw [enumValues_done (used ++ [(z : ℤ)]) h3 (by simpa using hn)]
    simp

theorem enumDiscriminants_done : ∀ {values : List Nat}, (∀ v ∈ values, v < 2 ^ 32) → enumDiscriminants (values.map Int.ofNat) = .ok values
  | [], _ => rfl
  | v :: vs, h => by
    have hv := h v (by simp)
    rw [List.map_cons, enumDiscriminants, if_pos ⟨by simp, by simp only [Int.ofNat_eq_natCast]; omega⟩, enumDiscriminants_done fun w hw => h w (by simp [hw])]
    simp [Outcome.bind]

/-- **C88** (enums are generated): a struct with one unsigned integer and constants of its type with different values, all below 2^32, becomes an enum of these values. -/
theorem C88_enum_generated (en : TypeKey → Bool) (d : Bool) (e : Option Nat) (name : String) (bits : Nat) (mode : CastMode) (al : Bool) (l : Verif.Bls.BitLengthSet) (cs : Constants)
    (r : Bool) (values : List Nat)
    (hc : List.Forall₂ (fun (c : String × Constant) (z : Nat) => (∃ mode, c.2.ty = .uint bits mode) ∧ c.2.value = .int z) cs values) (hn : values.Nodup) (hv : ∀ v ∈ values, v < 2 ^ 32) :
    (CMessage.struct d e [.data name (.prim (.uint bits mode)) .scalar al] l cs).generate en true r = .ok (.enum e r bits values) := by
  rw [CMessage.generate, if_pos rfl, enumFromStruct, enumValues_done [] hc (by simpa using hn.map Int.ofNat_injective), Outcome.bind, List.nil_append,
    enumDiscriminants_done hv, Outcome.bind]

-- Values up to the greatest.
example : (CMessage.struct false none [.data "value" (.prim (uintTy 32)) .scalar true] (.single 32)
    [("A", ⟨uintTy 32, .rational 5, .int 5⟩), ("B", ⟨uintTy 32, .rational 4294967295, .int 4294967295⟩)]).generate (fun _ => false) true false = .ok (.enum none false 32 [5, 4294967295]) :=
  C88_enum_generated _ _ _ _ _ _ _ _ _ _ _ (.cons ⟨⟨_, rfl⟩, rfl⟩ (.cons ⟨⟨_, rfl⟩, rfl⟩ .nil)) (by decide) (by decide)

-- A saturated and a truncated integer.
example : MessageFor (fun _ => false) false (.struct false none [.data "a" (.prim (.uint 7 .truncated)) .scalar true, .data "b" (.prim (.uint 9 .saturated)) (.fixed 3) false] (.single 34) [])
    (.struct none false (.data (.prim (.uint 7 false)) .scalar (.data (.prim (.uint 9 true)) (.fixed 3) .nil))) :=
  C88_members (r := false) (by rfl)

/-! ### Cases -/

/-- An enumeration, `uint2 value` with three constants, and a type with a member of it. -/
def enumFiles : List (TypeKey × File) :=
  [(demoKey "Health", fileOf [.field (.scalar (.prim (uintTy 2))) "value", .constant (uintTy 2) "NOMINAL" (.number 0), .constant (uintTy 2) "ADVISORY" (.number 1),
      .constant (uintTy 2) "WARNING" (.number 3), .directive "sealed" none]),
    (demoKey "Status", fileOf [.field (.scalar (.prim (uintTy 32))) "uptime", .field (.scalar (.versioned (demoKey "Health"))) "health",
      .field (.array (.prim (uintTy 3)) .inclusive (.number 2)) "codes", .directive "extent" (some (.number 256))])]

-- The files are as in the theorems, and code is generated for both types: an enum with three variants, and a struct that is delimited.
example : DifferentNames enumFiles ∧ ∃ types, compile demoX enumFiles = .ok types ∧ (match types with
    | [(k, ⟨_, .message health⟩), (_, ⟨_, .message status⟩)] =>
      k == demoKey "Health" && (match health.generate (· == demoKey "Health") true false with
        | .ok (.enum none false 2 values) => values == [0, 1, 3]
        | _ => false) &&
      (match status.generate (· == demoKey "Health") false false with
        | .ok (.struct (some 256) false fs) => flagsFrom fs none == [true, true, true]
        | _ => false)
    | _ => false) = true :=
  ⟨by simp [enumFiles, DifferentNames, SameName]; decide +kernel, compile_of_check (by decide +kernel)⟩

example : FilesOk enumFiles := by
  intro name file ss hm hs
  simp only [enumFiles, List.mem_cons, Prod.mk.injEq, List.not_mem_nil, or_false] at hm
  rcases hm with ⟨_, rfl⟩ | ⟨_, rfl⟩ <;> cases hs <;> refine ⟨by decide, fun s hs => ?_⟩ <;> simp only [List.mem_cons, List.not_mem_nil, or_false] at hs <;>
    rcases hs with rfl | rfl | rfl | rfl | rfl <;> trivial

/-- **C88 does not hold** for enums with values of 2^32 and more: the code generator panics, although the file meets the requirements that it states. -/
theorem C88_counterexample_enum : ∃ c, Compiles demoX [] (demoKey "T")
    (fileOf [.field (.scalar (.prim (uintTy 64))) "value", .constant (uintTy 64) "A" (.number 1), .constant (uintTy 64) "B" (.number (2 ^ 32)), .directive "sealed" none]) c ∧
    (match c.kind with
    | .message m => match m.generate (fun _ => true) true false with | .panic => true | _ => false
    | _ => false) = true :=
  compiles_of_check (by decide +kernel)

end Verif.Front
