import Verif.Pkg.Code
import Verif.Dsdl.ReadsEnd

/-!
C133: from the text of DSDL files to generated code.
-/

namespace Verif.Pkg

open Verif.Front (TypeKey SameName DifferentNames Compiled Externals Describes CMessage HasValue Denotes)
open Verif.Parse (DefinitionText Line accepted)
open Verif.Dsdl (Message Val Same SameResult)
open Verif.Enc

/-- The message `m` of the type `key` is described by a section of the text of a file of the package: all of it, or what is before or after `---`. -/
def DescribedInText (x : Externals) (disk : List OsStr → Option String) (p : Package) (types : List (TypeKey × Compiled)) (key : TypeKey) (m : CMessage) (part : List Front.Statement) : Prop :=
  ∃ name f text lines, (name, f) ∈ p ∧ SameName name key ∧ IsText disk f text ∧ DefinitionText accepted lines text.toList ∧
    part <:+: Line.statements lines ∧ Describes x types key.path part m

theorem described {nd : Char → Bool} {calls : List Call} {x : Externals} {disk : List OsStr → Option String} {types : List (TypeKey × Compiled)}
    (h : (afterCalls nd calls).compile x disk = .ok types) {key : TypeKey} {c : Compiled} (hm : (key, c) ∈ types) {m : CMessage} (hr : m ∈ c.messages) :
    ∃ part, DescribedInText x disk (afterCalls nd calls) types key m part := by
  obtain ⟨name, f, text, lines, h1, h2, h3, h4, _, h5⟩ := (C99_package nd calls x disk types h).2 key c hm
  unfold Compiled.messages at hr
  cases hk : c.kind with
  | message m' =>
    rw [hk] at hr h5
    rw [List.mem_singleton.1 hr]
    exact ⟨_, name, f, text, lines, h1, h2, h3, h4, List.infix_rfl, h5.1⟩
  | service a b =>
    rw [hk] at hr h5
    obtain ⟨pa, pb, hs, ha, hb, _⟩ := h5
    simp only [List.mem_cons, List.not_mem_nil, or_false] at hr
    rcases hr with rfl | rfl
    · exact ⟨pa, name, f, text, lines, h1, h2, h3, h4, ⟨[], _, by rw [hs]; rfl⟩, ha⟩
    · exact ⟨pb, name, f, text, lines, h1, h2, h3, h4, ⟨pa ++ [.responseMarker], [], by rw [hs]; simp⟩, hb⟩

theorem forall₂_trans {α β γ : Type} {R : α → β → Prop} {S : β → γ → Prop} {T : α → γ → Prop} : ∀ {l : List α} {m : List β} {n : List γ}, List.Forall₂ R l m → List.Forall₂ S m n →
    (∀ a b c, R a b → S b c → T a c) → List.Forall₂ T l n
  | _, _, _, .nil, .nil, _ => .nil
  | _, _, _, .cons h1 t1, .cons h2 t2, h => .cons (h _ _ _ h1 h2) (forall₂_trans t1 t2 h)

/-- **C133** (constants): for every type of a package that compiles, the generator does not panic for the constants. There is one constant in the generated code for each line `type NAME = expression`
of the text, in order, with this name (`_0` for `_`) and a literal that is in the range of its Rust type and means the value of the expression. -/
theorem C133_constants (nd : Char → Bool) (calls : List Call) (x : Externals) (disk : List OsStr → Option String) (types : List (TypeKey × Compiled))
    (h : (afterCalls nd calls).compile x disk = .ok types) (key : TypeKey) (c : Compiled) (hm : (key, c) ∈ types) (m : CMessage) (hr : m ∈ c.messages) :
    ∃ part out, DescribedInText x disk (afterCalls nd calls) types key m part ∧ Front.rustConstants m.constants = .ok out ∧
      List.Forall₂ (fun s o => ∃ ty name expr v, s = Front.Statement.constant ty name expr ∧ HasValue x types key.path m.constants expr v ∧
        o.1 = (if name = "_" then "_0" else name) ∧ Denotes x o.2.1 o.2.2 v) (part.filter Front.Statement.isConstant) out := by
  obtain ⟨files, hd, hcomp, hw, _⟩ := package_files h
  obtain ⟨out, h1, h2⟩ := Front.C123_constants x files types hd hcomp hw key c hm m hr
  obtain ⟨part, hp⟩ := described h hm hr
  refine ⟨part, out, hp, h1, ?_⟩
  obtain ⟨_, _, _, _, _, _, _, _, _, hdes⟩ := hp
  refine forall₂_trans hdes.constants h2 fun s e o h3 h4 => ?_
  cases s <;> try exact h3.elim
  exact ⟨_, _, _, _, rfl, h3.2.2.1, by rw [h4.1, h3.1], h4.2⟩

/-- **C133** (bytes): for every type of a package that compiles and for which code is generated, the type that the code is for has the members of the text, in order (`Describes`, `MessageFor`).
`serialize` writes the bits that the DSDL specification prescribes for this type (`Message.bits`), and `deserialize` returns the value again, whatever comes after it.

Missing: the types and values that C67 and C68 exclude. -/
theorem C133_bytes_partial (nd : Char → Bool) (calls : List Call) (x : Externals) (disk : List OsStr → Option String) (types : List (TypeKey × Compiled))
    (h : (afterCalls nd calls).compile x disk = .ok types) (key : TypeKey) (c : Compiled) (hm : (key, c) ∈ types) (r : Bool) (m : CMessage) (hr : (r, m) ∈ c.roles)
    (en : TypeKey → Bool) (asEnum : Bool) (M : Message) (hg : m.generate en asEnum r = .ok M) :
    (∃ part, DescribedInText x disk (afterCalls nd calls) types key m part) ∧ Front.MessageFor en asEnum m M ∧ M.extent = m.extent ∧ M.request = r ∧
    ∀ v, M.good = true → M.has v = true → M.fits v = true → ∀ buf : List Byte, M.sizeBits v ≤ 8 * buf.length → M.sizeBits v ≤ 8 * (2 ^ 32 - 1) →
      ∃ cur, M.serialize v (WriteCursor.new buf) = some cur ∧ cur.bitsWritten = (M.bits v).length ∧ (∀ p, bitAt cur.bytes p = (M.bits v).getD p false) ∧
        (M.safe v = true ∨ M.safeEnd v = true → ∀ extra, ∃ w rest, M.deserialize (ReadCursor.new (cur.bytes ++ extra)) = some (.ok w, rest) ∧ Same w v) := by
  obtain ⟨files, hd, hcomp, _, _⟩ := package_files h
  obtain ⟨_, h2, h3, _⟩ := Front.C88_agrees x files types hd hcomp key c hm r m hr en asEnum M hg
  refine ⟨described h hm (Front.roles_messages hr), Front.C88_members hg, h2, h3, fun v hgood hhas hfits buf hbuf hsize => ?_⟩
  have hs := Dsdl.C67_size_partial M v hgood hhas hfits
  obtain ⟨cur, h4, h5, _, h6⟩ := Dsdl.C67_wire_format_partial M v hgood hhas hfits (by omega) buf (by omega)
  refine ⟨cur, h4, h5, h6, fun hsafe extra => ?_⟩
  rcases hsafe with hsafe | hsafe
  · exact Dsdl.C68_round_trip_partial M v hgood hhas hfits hsafe hsize buf extra hbuf cur h4
  · exact Dsdl.C68_round_trip_end_partial M v hgood hhas hfits hsafe hsize buf extra hbuf cur h4

/-- **C133** (missing bytes are zeros): for every type of a package that compiles, the generated `deserialize` gives the same result for bytes as for these bytes with zeros after them, unless they
end inside a delimited composite. The texts are of a length that the memory of a 64-bit machine can have. -/
theorem C133_zero_extension (nd : Char → Bool) (calls : List Call) (x : Externals) (disk : List OsStr → Option String) (types : List (TypeKey × Compiled))
    (h : (afterCalls nd calls).compile x disk = .ok types) (hshort : ∀ e ∈ afterCalls nd calls, ∀ text, IsText disk e.2 text → text.length < 2 ^ 64)
    (key : TypeKey) (c : Compiled) (hm : (key, c) ∈ types) (r : Bool) (m : CMessage) (hr : (r, m) ∈ c.roles)
    (en : TypeKey → Bool) (asEnum : Bool) (M : Message) (hg : m.generate en asEnum r = .ok M) (bytes : List Byte) (n : Nat) :
    (∃ c, M.deserialize (ReadCursor.new bytes) = some (.error .delimitedLength, c)) ∨
    SameResult (M.deserialize (ReadCursor.new bytes)) (M.deserialize (ReadCursor.new (bytes ++ List.replicate n 0))) := by
  obtain ⟨files, hd, hcomp, _, hok⟩ := package_files h
  exact Front.C88_zero_extension x files types hd (hok hshort) hcomp key c hm r m hr en asEnum M hg bytes n

/-- **C133** (enums): if an enum is generated for a type of a package that compiles, it has one variant for each constant of the text, in order, with the value of the constant; the values are different,
and each variant is read back after it was written. -/
theorem C133_enum (nd : Char → Bool) (calls : List Call) (x : Externals) (disk : List OsStr → Option String) (types : List (TypeKey × Compiled))
    (h : (afterCalls nd calls).compile x disk = .ok types) (hshort : ∀ e ∈ afterCalls nd calls, ∀ text, IsText disk e.2 text → text.length < 2 ^ 64)
    (key : TypeKey) (c : Compiled) (hm : (key, c) ∈ types) (r : Bool) (m : CMessage) (hr : (r, m) ∈ c.roles)
    (en : TypeKey → Bool) (M : Message) (hg : m.generate en true r = .ok M) :
    ∃ part bits values, DescribedInText x disk (afterCalls nd calls) types key m part ∧ M = .enum m.extent r bits values ∧ values.Nodup ∧
      List.Forall₂ (fun s (d : Nat) => ∃ ty name expr v, s = Front.Statement.constant ty name expr ∧ HasValue x types key.path m.constants expr v ∧
        (v = .rational d ∨ ∃ ch : Char, v = .string (String.singleton ch) ∧ ch.toNat = d)) (part.filter Front.Statement.isConstant) values ∧
      ∀ d ∈ values, ∀ buf extra : List Byte, 64 ≤ 8 * buf.length →
        ∃ cur rest, M.serialize (.tag d) (WriteCursor.new buf) = some cur ∧ M.deserialize (ReadCursor.new (cur.bytes ++ extra)) = some (.ok (.tag d), rest) := by
  obtain ⟨files, hd, hcomp, _, hok⟩ := package_files h
  obtain ⟨name, bits, mode, values, h1, h2, h3, h4, h5, h6⟩ := Front.C88_enum x files types hd (hok hshort) hcomp key c hm r m hr en M hg
  obtain ⟨part, hp⟩ := described h hm (Front.roles_messages hr)
  refine ⟨part, bits, values, hp, h2, h3, ?_, h6⟩
  obtain ⟨_, _, _, _, _, _, _, _, _, hdes⟩ := hp
  refine forall₂_trans hdes.constants h5 fun s e d h7 h8 => ?_
  cases s <;> try exact h7.elim
  refine ⟨_, _, _, _, rfl, h7.2.2.1, ?_⟩
  have hrep := h7.2.2.2.1
  rw [h8] at hrep
  unfold Front.Represents at hrep
  split at hrep
  · obtain ⟨_, _, hc⟩ := hrep; cases hc
  · obtain ⟨z, hv, hc, _⟩ := hrep
    cases hc
    exact .inl hv
  · rcases hrep with ⟨n, hv, hc, _⟩ | ⟨_, ch, hv, hc, _⟩
    · injection hc with hc
      rw [Int.ofNat.inj hc]
      exact .inl hv
    · injection hc with hc
      exact .inr ⟨ch, hv, (Int.ofNat.inj hc).symm⟩
  · obtain ⟨_, _, _, _, hc⟩ := hrep; cases hc
  · obtain ⟨_, _, _, _, hc⟩ := hrep; cases hc
  · obtain ⟨_, _, _, _, hc⟩ := hrep; cases hc
  · exact hrep.elim

/-! ### A case -/

/-- A program that adds two texts: an enumeration, and a service that uses it. -/
def textCalls : List Call :=
  [.addString none ⟨["ns"], "Health", 1, 0⟩ "uint2 value\nuint2 NOMINAL = 2 - 2\nuint2 WARNING = 3 # two bits\n@sealed\n",
    .addString (some 300) ⟨["ns"], "Check", 1, 0⟩ "uint8 MAX = 'a' \nuint12 level\n@extent 64\n---\nns.Health.1.0 health\ntruncated uint6[<=2] codes\n@sealed\n"]

/-- What the example below checks of the types. -/
def textCheck : List (TypeKey × Compiled) → Bool
  | [(_, ⟨_, .message health⟩), (_, ⟨some 300, .service request response⟩)] =>
    (match health.generate (· == ⟨["ns"], "Health", 1, 0⟩) true false with
      | .ok (.enum none false 2 values) => values == [0, 3]
      | _ => false) &&
    (match Front.rustConstants request.constants with
      | .ok [(name, .u 8, .int text)] => name == "MAX" && text == "97"
      | _ => false) &&
    (match response.generate (· == ⟨["ns"], "Health", 1, 0⟩) false false with
      | .ok M => M.good && M.has (.record [.tag 3, .list [.num 5, .num 33]]) && M.fits (.record [.tag 3, .list [.num 5, .num 33]]) && M.safe (.record [.tag 3, .list [.num 5, .num 33]])
      | _ => false)
  | _ => false

-- The texts compile, and code is generated for the types.
example : (match (afterCalls (fun _ => false) textCalls).compile Front.demoX (fun _ => none) with
    | .ok types => textCheck types
    | _ => false) = true := by decide +kernel

end Verif.Pkg
