import Verif.Front.Generate
import Verif.Front.LenProps
import Verif.Dsdl.Props

/-!
Helper lemmas: the types that code is generated for have the lengths that the compiler computed.
-/

namespace Verif.Front

open Verif.Dsdl (Arity Fields Variants Message Scalar lengthSoFar afterPadding afterData alwaysAligned)
open Verif.Bls

/-- What `always_aligned` is for each field, from the lengths of the fields before. -/
def flagsFrom : Fields → Option BitLengthSet → List Bool
  | .nil, _ => []
  | .padding bits rest, l => alwaysAligned l :: flagsFrom rest (some (afterPadding bits l))
  | .data s a rest, l => alwaysAligned l :: flagsFrom rest (some (afterData s s.size a l))

/-- The type that code is generated for has the length and extent of the compiled type. -/
def Agrees (m : CMessage) : Prop := ∀ en b M, m.generate en b false = .ok M → M.bitLength = m.bitLength ∧ M.extent = m.extent

/-- What is known of the types in the members. -/
def AgreesIn (members : List Member) : Prop := ∀ n key inner a, Member.data n (.composite key inner) a ∈ members → Agrees inner

theorem Prim.generated_bits (p : Prim) : p.generated.bits = p.bits := by cases p <;> rfl

theorem scalar_gen {en : TypeKey → Bool} {s : RScalar} {S : Scalar} (h : s.generate en = .ok S) (hi : ∀ key inner, s = .composite key inner → Agrees inner) :
    S.size = s.size ∧ S.alignment = s.alignment ∧ S.extent.isSome = s.delimited := by
  cases s with
  | prim p =>
    rw [RScalar.generate] at h
    cases h
    exact ⟨by rw [Scalar.size, p.generated_bits]; rfl, rfl, rfl⟩
  | void b => rw [RScalar.generate] at h; cases h
  | composite key m =>
    rw [RScalar.generate] at h
    obtain ⟨M, h1, h2⟩ := Outcome.bind_ok h
    cases h2
    obtain ⟨e1, e2⟩ := hi key m rfl en _ M h1
    refine ⟨by rw [Scalar.size, e1]; rfl, rfl, ?_⟩
    show M.extent.isSome = m.extent.isSome
    rw [e2]

theorem afterData_gen {s : RScalar} {S : Scalar} (h : S.size = s.size ∧ S.alignment = s.alignment ∧ S.extent.isSome = s.delimited) (a : Arity) (l : Option BitLengthSet) :
    afterData S S.size a l = updateStructLength s a (lengthSoFar l) := by
  obtain ⟨h1, h2, h3⟩ := h
  unfold afterData updateStructLength
  have : Verif.Dsdl.fieldTotal S S.size a = totalLength s a := by
    unfold Verif.Dsdl.fieldTotal totalLength sizeOfType
    rw [h1]
    cases a with
    | scalar =>
      simp only [Verif.Dsdl.implicitBits, implicitField, h3]
      cases s.delimited <;> rfl
    | fixed k => rfl
    | var k => rfl
  rw [h2, this]

theorem fields_gen {en : TypeKey → Bool} : ∀ {fs : List CField} {FS : Fields} (l : Option BitLengthSet), generateFields en fs = .ok FS → AgreesIn (fs.map CField.member) →
    FS.lengthFrom l = fs.foldl stepLen l ∧ (∀ pre, structLen pre = l → FlagsOk (pre ++ fs) → flagsFrom FS l = fs.map CField.aligned)
  | [], FS, l, h, _ => by
    rw [generateFields] at h
    cases h
    exact ⟨by rw [Fields.lengthFrom]; rfl, fun _ _ _ => by rw [flagsFrom]; rfl⟩
  | .padding bits al :: rest, FS, l, h, hi => by
    rw [generateFields] at h
    obtain ⟨fs, h1, h2⟩ := Outcome.bind_ok h
    cases h2
    obtain ⟨e1, e2⟩ := fields_gen (some (afterPadding bits l)) h1 fun n key inner a hm => hi n key inner a (List.mem_cons_of_mem _ hm)
    refine ⟨by rw [Fields.lengthFrom, e1]; rfl, fun pre hp hf => ?_⟩
    rw [flagsFrom, e2 (pre ++ [.padding bits al]) (by rw [structLen_snoc, hp]; rfl) (by simpa using hf), ← hp, ← hf pre _ rest rfl]
    rfl
  | .data name s a al :: rest, FS, l, h, hi => by
    rw [generateFields] at h
    obtain ⟨S, h1, h2⟩ := Outcome.bind_ok h
    obtain ⟨fs, h3, h4⟩ := Outcome.bind_ok h2
    cases h4
    have hS := scalar_gen h1 fun key inner e => hi name key inner a (by rw [← e]; exact List.mem_cons_self)
    have hstep : some (afterData S S.size a l) = stepLen l (.data name s a al) := congrArg some (afterData_gen hS a l)
    obtain ⟨e1, e2⟩ := fields_gen (stepLen l (.data name s a al)) h3 fun n key inner a hm => hi n key inner a (List.mem_cons_of_mem _ hm)
    refine ⟨by rw [Fields.lengthFrom, hstep, e1]; rfl, fun pre hp hf => ?_⟩
    rw [flagsFrom, hstep, e2 (pre ++ [.data name s a al]) (by rw [structLen_snoc, hp]) (by simpa using hf), ← hp, ← hf pre _ rest rfl]
    rfl

theorem variants_gen {en : TypeKey → Bool} : ∀ {vs : List CVariant} {VS : Variants}, generateVariants en vs = .ok VS → AgreesIn (vs.map CVariant.member) →
    VS.sizes = vs.map CVariant.size ∧ VS.count = vs.length
  | [], VS, h, _ => by
    rw [generateVariants] at h
    cases h
    exact ⟨by rw [Variants.sizes]; rfl, rfl⟩
  | .mk name s a :: rest, VS, h, hi => by
    rw [generateVariants] at h
    obtain ⟨S, h1, h2⟩ := Outcome.bind_ok h
    obtain ⟨fs, h3, h4⟩ := Outcome.bind_ok h2
    cases h4
    have hS := scalar_gen h1 fun key inner e => hi name key inner a (by rw [← e]; exact List.mem_cons_self)
    obtain ⟨e1, e2⟩ := variants_gen h3 fun n key inner a hm => hi n key inner a (List.mem_cons_of_mem _ hm)
    refine ⟨by rw [Variants.sizes, e1, hS.1]; rfl, ?_⟩
    show fs.count + 1 = rest.length + 1
    rw [e2]

theorem enum_gen {e : Option Nat} {r : Bool} {fields : List CField} {cs : Constants} {M : Message} (h : enumFromStruct e r fields cs = .ok M) :
    ∃ name bits mode al zs ds, fields = [.data name (.prim (.uint bits mode)) .scalar al] ∧ M = .enum e r bits ds ∧ enumValues bits cs [] = .ok zs ∧
      enumDiscriminants zs = .ok ds := by
  unfold enumFromStruct at h
  split at h
  · next name bits mode al =>
    obtain ⟨zs, h1, h2⟩ := Outcome.bind_ok h
    obtain ⟨ds, h3, h4⟩ := Outcome.bind_ok h2
    cases h4
    exact ⟨name, bits, mode, al, zs, ds, rfl, rfl, h1, h3⟩
  · cases h

/-- A message whose length is as the compiler computes it. -/
theorem message_gen {m : CMessage} {request : Bool} (hok : MsgOk request m) (hi : AgreesIn m.members) {en : TypeKey → Bool} {b : Bool} {M : Message}
    (h : m.generate en b request = .ok M) : M.bitLength = m.bitLength ∧ M.extent = m.extent ∧ M.request = request := by
  rw [hok.1]
  cases m with
  | struct d e fields l cs =>
    rw [CMessage.generate] at h
    split at h
    · obtain ⟨name, bits, mode, al, zs, ds, rfl, rfl, _, _⟩ := enum_gen h
      refine ⟨?_, rfl, rfl⟩
      rw [Message.bitLength]
      rfl
    · obtain ⟨FS, h1, h2⟩ := Outcome.bind_ok h
      cases h2
      refine ⟨?_, rfl, rfl⟩
      rw [Message.bitLength, (fields_gen none h1 hi).1]
      rfl
  | union d e bits vs l cs =>
    rw [CMessage.generate] at h
    split at h
    · cases h
    · obtain ⟨VS, h1, h2⟩ := Outcome.bind_ok h
      cases h2
      refine ⟨?_, rfl, rfl⟩
      obtain ⟨e1, e2⟩ := variants_gen h1 hi
      rw [Message.bitLength, e1, Variants.tagBits, e2]
      rfl

theorem agreesIn_of_known {known : List (TypeKey × Compiled)} {ms : List Member} (hk : ∀ key port m, (key, Compiled.mk port (.message m)) ∈ known → Agrees m)
    (h : ∀ n key inner a, Member.data n (.composite key inner) a ∈ ms → ∃ port, (key, ⟨port, .message inner⟩) ∈ known) : AgreesIn ms := by
  intro n key inner a hm
  obtain ⟨port, hmem⟩ := h n key inner a hm
  exact hk key port inner hmem

theorem all_agree {x : Externals} {files : List (TypeKey × File)} {types : List (TypeKey × Compiled)} (ho : InOrder x files types) :
    ∀ key port m, (key, Compiled.mk port (.message m)) ∈ types → Agrees m := by
  have : ∀ before after, types = before ++ after → ∀ key port m, (key, Compiled.mk port (.message m)) ∈ before → Agrees m := by
    intro before
    induction before using List.reverseRecOn with
    | nil => simp
    | append_singleton before e ih =>
      intro after hs key port m hm
      have hs' : types = before ++ e :: after := by simpa using hs
      rcases List.mem_append.1 hm with hm | hm
      · exact ih _ hs' key port m hm
      · rw [← List.mem_singleton.1 hm] at hs'
        obtain ⟨name, file, _, _, hc⟩ := ho before key _ after hs'
        have hw := C87_messages_partial x before key file _ hc m (by simp [Compiled.messages])
        intro en b M hM
        obtain ⟨e1, e2, _⟩ := message_gen (ok_compiles hc) (agreesIn_of_known (ih _ hs') hw.known) hM
        exact ⟨e1, e2⟩
  exact this types [] (by simp)

/-! ### Widths -/

/-- The type that code is generated for has widths and lengths that DSDL has. -/
def Valid (m : CMessage) : Prop := ∀ en b r M, m.generate en b r = .ok M → M.valid = true

/-- Widths from 1 to 64 and lengths below 2^64. -/
def Member.Ok : Member → Prop
  | .padding _ => True
  | .data _ s a => (∀ p, s = .prim p → 1 ≤ p.bits ∧ p.bits ≤ 64) ∧ (∀ key inner, s = .composite key inner → Valid inner) ∧ ArityFits a

theorem arity_ok {a : Arity} (h : ArityFits a) : a.ok = true := by
  cases a with
  | scalar => rfl
  | fixed k => rfl
  | var k => exact decide_eq_true (p := k < 2 ^ 64) h

theorem scalar_valid {en : TypeKey → Bool} {s : RScalar} {S : Scalar} {n : String} {a : Arity} (h : s.generate en = .ok S) (ho : (Member.data n s a).Ok) : S.valid = true := by
  cases s with
  | prim p =>
    rw [RScalar.generate] at h
    cases h
    have := ho.1 p rfl
    rw [Scalar.valid]
    cases p <;> simp_all [Prim.generated, Verif.Dsdl.Prim.ok, Prim.bits]
  | void b => rw [RScalar.generate] at h; cases h
  | composite key m =>
    rw [RScalar.generate] at h
    obtain ⟨M, h1, h2⟩ := Outcome.bind_ok h
    cases h2
    rw [Scalar.valid]
    exact ho.2.1 key m rfl en _ _ M h1

theorem fields_valid {en : TypeKey → Bool} : ∀ {fs : List CField} {FS : Fields}, generateFields en fs = .ok FS → (∀ mem ∈ fs.map CField.member, mem.Ok) → FS.valid = true
  | [], FS, h, _ => by
    rw [generateFields] at h
    cases h
    rw [Fields.valid]
  | .padding bits al :: rest, FS, h, hi => by
    rw [generateFields] at h
    obtain ⟨fs, h1, h2⟩ := Outcome.bind_ok h
    cases h2
    rw [Fields.valid]
    exact fields_valid h1 fun mem hm => hi mem (List.mem_cons_of_mem _ hm)
  | .data name s a al :: rest, FS, h, hi => by
    rw [generateFields] at h
    obtain ⟨S, h1, h2⟩ := Outcome.bind_ok h
    obtain ⟨fs, h3, h4⟩ := Outcome.bind_ok h2
    cases h4
    have ho := hi (.data name s a) List.mem_cons_self
    rw [Fields.valid, scalar_valid h1 ho, arity_ok ho.2.2, fields_valid h3 fun mem hm => hi mem (List.mem_cons_of_mem _ hm)]
    rfl

theorem variants_valid {en : TypeKey → Bool} : ∀ {vs : List CVariant} {VS : Variants}, generateVariants en vs = .ok VS → (∀ mem ∈ vs.map CVariant.member, mem.Ok) →
    VS.valid = true ∧ VS.count = vs.length
  | [], VS, h, _ => by
    rw [generateVariants] at h
    cases h
    exact ⟨by rw [Variants.valid], rfl⟩
  | .mk name s a :: rest, VS, h, hi => by
    rw [generateVariants] at h
    obtain ⟨S, h1, h2⟩ := Outcome.bind_ok h
    obtain ⟨fs, h3, h4⟩ := Outcome.bind_ok h2
    cases h4
    have ho := hi (.data name s a) List.mem_cons_self
    obtain ⟨e1, e2⟩ := variants_valid h3 fun mem hm => hi mem (List.mem_cons_of_mem _ hm)
    refine ⟨by rw [Variants.valid, scalar_valid h1 ho, arity_ok ho.2.2, e1]; rfl, ?_⟩
    show fs.count + 1 = rest.length + 1
    rw [e2]

theorem message_valid {m : CMessage} (hi : ∀ mem ∈ m.members, mem.Ok) (hc : m.members.length < 2 ^ 64) : Valid m := by
  intro en b r M h
  cases m with
  | struct d e fields l cs =>
    rw [CMessage.generate] at h
    split at h
    · obtain ⟨name, bits, mode, al, zs, ds, rfl, rfl, _, _⟩ := enum_gen h
      have := (hi (.data name (.prim (.uint bits mode)) .scalar) (by simp [CMessage.members, CField.member])).1 _ rfl
      rw [Message.valid]
      exact decide_eq_true this
    · obtain ⟨FS, h1, h2⟩ := Outcome.bind_ok h
      cases h2
      rw [Message.valid]
      exact fields_valid h1 hi
  | union d e bits vs l cs =>
    rw [CMessage.generate] at h
    split at h
    · cases h
    · obtain ⟨VS, h1, h2⟩ := Outcome.bind_ok h
      cases h2
      obtain ⟨e1, e2⟩ := variants_valid h1 hi
      rw [Message.valid, e1, e2, Bool.true_and]
      have hlen : (CMessage.union d e bits vs l cs).members.length = vs.length := by simp [CMessage.members]
      exact decide_eq_true (hlen ▸ hc)

/-- The primitive types in the statement have 1 to 64 bits, as the parser makes sure. -/
def Statement.Widths : Statement → Prop
  | .field (.scalar (.prim p)) _ => 1 ≤ p.bits ∧ p.bits ≤ 64
  | .field (.array (.prim p) _ _) _ => 1 ≤ p.bits ∧ p.bits ≤ 64
  | _ => True

/-- The files have types of 1 to 64 bits, and less than 2^64 statements. -/
def FilesOk (files : List (TypeKey × File)) : Prop :=
  ∀ name file ss, (name, file) ∈ files → file.statements = some ss → ss.length < 2 ^ 64 ∧ ∀ s ∈ ss, s.Widths

/-- The statements that describe a message of a file. -/
theorem describes_part {x : Externals} {known : List (TypeKey × Compiled)} {key : TypeKey} {file : File} {c : Compiled} (h : Compiles x known key file c) {m : CMessage}
    (hm : m ∈ c.messages) : ∃ ss part, file.statements = some ss ∧ part.Sublist ss ∧ Describes x known key.path part m := by
  obtain ⟨ss, hss, _, hk⟩ := C85_file x known key file c h
  unfold Compiled.messages at hm
  cases hc : c.kind with
  | message m' =>
    rw [hc] at hm hk
    rw [List.mem_singleton.1 hm]
    exact ⟨ss, ss, hss, List.Sublist.refl _, hk.1⟩
  | service req resp =>
    rw [hc] at hm hk
    obtain ⟨a, b, rfl, h1, h2, _⟩ := hk
    rcases List.mem_cons.1 hm with rfl | hm
    · exact ⟨_, a, hss, List.sublist_append_left _ _, h1⟩
    · rw [List.mem_singleton.1 hm]
      exact ⟨_, b, hss, (List.sublist_cons_self _ _).trans (List.sublist_append_right _ _), h2⟩

theorem forall₂_right {α β : Type} {R : α → β → Prop} : ∀ {as : List α} {bs : List β}, List.Forall₂ R as bs → ∀ b ∈ bs, ∃ a ∈ as, R a b
  | _, _, .nil => by simp
  | _, _, .cons h t => by
    intro b hb
    rcases List.mem_cons.1 hb with rfl | hb
    · exact ⟨_, List.mem_cons_self, h⟩
    · obtain ⟨a, ha, hr⟩ := forall₂_right t b hb
      exact ⟨a, List.mem_cons_of_mem _ ha, hr⟩

theorem members_ok {x : Externals} {known : List (TypeKey × Compiled)} {path : List String} {part : List Statement} {m : CMessage} (hd : Describes x known path part m)
    (hw : ∀ s ∈ part, s.Widths) (hv : ∀ n key inner a, Member.data n (.composite key inner) a ∈ m.members → Valid inner) : ∀ mem ∈ m.members, mem.Ok := by
  intro mem hmem
  cases mem with
  | padding bits => trivial
  | data n s a =>
    obtain ⟨st, hst, hr⟩ := forall₂_right hd.members _ hmem
    have hwid := hw st (List.mem_filter.1 hst).1
    refine ⟨?_, fun key inner he => hv n key inner a (he ▸ hmem), ?_⟩
    · rintro p rfl
      cases st with
      | field ty name =>
        cases ty with
        | scalar sc =>
          obtain ⟨_, h2, _⟩ := hr
          cases sc with
          | prim q => cases h2; exact hwid
          | void b => cases h2
          | versioned k => obtain ⟨_, _, _, h3⟩ := h2; cases h3
        | array sc kind e =>
          obtain ⟨_, h2, _⟩ := hr
          cases sc with
          | prim q => cases h2; exact hwid
          | void b => cases h2
          | versioned k => obtain ⟨_, _, _, h3⟩ := h2; cases h3
      | _ => exact hr.elim
    · cases st with
      | field ty name =>
        cases ty with
        | scalar sc =>
          obtain ⟨_, _, rfl⟩ := hr
          trivial
        | array sc kind e =>
          obtain ⟨_, _, k, hk, _, h3⟩ := hr
          cases kind with
          | fixed => cases h3; trivial
          | inclusive => cases h3; exact hk
          | exclusive => obtain ⟨_, rfl⟩ := h3; exact Nat.lt_of_le_of_lt (Nat.sub_le _ _) hk
      | _ => exact hr.elim

theorem compiled_valid {x : Externals} {files : List (TypeKey × File)} (hf : FilesOk files) {known : List (TypeKey × Compiled)} {key name : TypeKey} {file : File}
    {c : Compiled} (hmem : (name, file) ∈ files) (h : Compiles x known key file c) (hk : ∀ key port m, (key, Compiled.mk port (.message m)) ∈ known → Valid m) {m : CMessage}
    (hm : m ∈ c.messages) : Valid m := by
  obtain ⟨ss, part, hss, hsub, hd⟩ := describes_part h hm
  obtain ⟨hlen, hwid⟩ := hf name file ss hmem hss
  have hw := C87_messages_partial x known key file c h m hm
  refine message_valid (members_ok hd (fun s hs => hwid s (hsub.subset hs)) fun n key inner a hmm => ?_) ?_
  · obtain ⟨port, hp⟩ := hw.known n key inner a hmm
    exact hk key port inner hp
  · rw [← hd.members.length_eq]
    exact Nat.lt_of_le_of_lt (Nat.le_trans (List.length_filter_le _ _) hsub.length_le) hlen

theorem all_valid {x : Externals} {files : List (TypeKey × File)} (hf : FilesOk files) {types : List (TypeKey × Compiled)} (ho : InOrder x files types) :
    ∀ key port m, (key, Compiled.mk port (.message m)) ∈ types → Valid m := by
  have : ∀ before after, types = before ++ after → ∀ key port m, (key, Compiled.mk port (.message m)) ∈ before → Valid m := by
    intro before
    induction before using List.reverseRecOn with
    | nil => simp
    | append_singleton before e ih =>
      intro after hs key port m hm
      have hs' : types = before ++ e :: after := by simpa using hs
      rcases List.mem_append.1 hm with hm | hm
      · exact ih _ hs' key port m hm
      · rw [← List.mem_singleton.1 hm] at hs'
        obtain ⟨name, file, hmem, _, hc⟩ := ho before key _ after hs'
        exact compiled_valid hf hmem hc (ih _ hs') (by simp [Compiled.messages])
  exact this types [] (by simp)

end Verif.Front
