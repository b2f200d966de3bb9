import Verif.Shipped.Generate
import Verif.Dsdl.Spec

/-!
The Rust that the generator writes does what `Verif.Dsdl.Model` says.
-/

namespace Verif.Shipped

open Verif.Enc Verif.Dsdl Verif.Bls

/-- The type `i` does what the generated type of `m` does in `Verif.Dsdl.Model`. -/
structure Implements (i : Impl) (m : Message) : Prop where
  extent : i.extentBytes = m.extent.map (· / 8)
  size : ∀ v, m.has v = true → i.sizeBits v = m.sizeBits v
  ser : ∀ v c, m.has v = true → i.serialize v c = m.serialize v c
  de : ∀ c, i.deserialize c = m.deserialize c
  image : m.nestedZeroCopy = true → ∀ v, m.has v = true → i.image v = m.image v
  load : m.nestedZeroCopy = true → ∀ bs, i.load bs = m.load bs
  mem : m.nestedZeroCopy = true → i.memSize = m.memSize

/-- The types with the same numbers. -/
abbrev Env (env : List Impl) (types : List Message) : Prop := List.Forall₂ Implements env types

theorem Env.get {env : List Impl} {types : List Message} (h : Env env types) {n : Nat} {m : Message} (hm : types[n]? = some m) :
    ∃ i, env[n]? = some i ∧ Implements i m := by
  induction h generalizing n with
  | nil => simp at hm
  | cons h _ ih =>
    cases n with
    | zero =>
      simp only [List.getElem?_cons_zero, Option.some.injEq] at hm
      subst hm
      exact ⟨_, rfl, h⟩
    | succ n =>
      simp only [List.getElem?_cons_succ] at hm ⊢
      exact ih hm

/-! ### One value -/

theorem writeU_cast (c : WriteCursor) (n : Nat) (x : BitVec 64) :
    c.writeU n ((x.setWidth (roundUpIntegerSize n)).setWidth 64) = c.writeU n x := by
  by_cases h8 : n ≤ 8
  · rw [show roundUpIntegerSize n = 8 from if_pos h8]
    simp only [WriteCursor.writeU, h8, if_true]
    rw [BitVec.setWidth_setWidth_of_le _ (by decide), BitVec.setWidth_eq]
  · by_cases h16 : n ≤ 16
    · rw [show roundUpIntegerSize n = 16 by unfold roundUpIntegerSize; rw [if_neg h8, if_pos h16]]
      simp only [WriteCursor.writeU, h8, h16, if_true, if_false]
      rw [BitVec.setWidth_setWidth_of_le _ (by decide), BitVec.setWidth_eq]
    · by_cases h32 : n ≤ 32
      · rw [show roundUpIntegerSize n = 32 by unfold roundUpIntegerSize; rw [if_neg h8, if_neg h16, if_pos h32]]
        simp only [WriteCursor.writeU, h8, h16, h32, if_true, if_false]
        rw [BitVec.setWidth_setWidth_of_le _ (by decide), BitVec.setWidth_eq]
      · rw [show roundUpIntegerSize n = 64 by unfold roundUpIntegerSize; rw [if_neg h8, if_neg h16, if_neg h32]]
        rw [BitVec.setWidth_eq, BitVec.setWidth_eq]

theorem writeAlignedU_cast (c : WriteCursor) (n : Nat) (x : BitVec 64) :
    c.writeAlignedU (n / 8) ((x.setWidth (roundUpIntegerSize n)).setWidth 64) = c.writeAlignedU (n / 8) x := by
  unfold WriteCursor.writeAlignedU
  have hle : 8 * (n / 8) ≤ roundUpIntegerSize n ∨ roundUpIntegerSize n = 64 := by unfold roundUpIntegerSize; split <;> (try split) <;> (try split) <;> omega
  rcases hle with hle | h64
  · have : (List.range (n / 8)).map (fun i => ((((x.setWidth (roundUpIntegerSize n)).setWidth 64) >>> (8 * i)).setWidth 8 : BitVec 8)) =
        (List.range (n / 8)).map fun i => ((x >>> (8 * i)).setWidth 8 : BitVec 8) := by
      apply List.map_congr_left
      intro i hi
      rw [List.mem_range] at hi
      have h64 : roundUpIntegerSize n ≤ 64 := by unfold roundUpIntegerSize; split <;> (try split) <;> (try split) <;> omega
      ext j hj
      have h1 : 8 * i + j < roundUpIntegerSize n := by omega
      have h2 : 8 * i + j < 64 := by omega
      simp [h1, h2]
    rw [this]
  · rw [h64, BitVec.setWidth_eq, BitVec.setWidth_eq]

theorem callWrite_get (env : List Impl) (im : Option (List Byte)) (aligned : Bool) (bits : Nat) (n : Num) (s : Scope) (x : BitVec 64) (c : WriteCursor)
    (hn : n.eval s = some x) :
    (callWrite aligned bits n).run env im s c = if aligned then writeUIntAligned bits x c else c.writeU bits x := by
  unfold callWrite writeUIntAligned haveAligned
  cases aligned with
  | false => simp [Stmt.run, hn]
  | true =>
    by_cases h : bits = 8 ∨ bits = 16 ∨ bits = 32 ∨ bits = 64
    · rcases h with h | h | h | h <;> subst h <;> simp [Stmt.run, hn]
    · have : ¬bits = 8 ∧ ¬bits = 16 ∧ ¬bits = 32 ∧ ¬bits = 64 := by omega
      simp [Stmt.run, hn, this]

theorem writeUIntAligned_cast (c : WriteCursor) (n : Nat) (x : BitVec 64) :
    writeUIntAligned n ((x.setWidth (roundUpIntegerSize n)).setWidth 64) c = writeUIntAligned n x c := by
  unfold writeUIntAligned
  split
  · exact writeAlignedU_cast c n x
  · exact writeU_cast c n x

/-- `write_composite` needs the size and the bytes of the value only. -/
theorem writeComposite_congr {i : Impl} {m : Message} (h : Implements i m) (v : Val) (hv : m.has v = true) (c : WriteCursor) :
    c.writeComposite i.writer v = c.writeComposite ⟨m.extent.map (· / 8), m.sizeBits, m.serialize⟩ v := by
  unfold WriteCursor.writeComposite Impl.writer
  simp only [h.extent, h.size v hv, h.ser v _ hv]

theorem writeOne_run {env : List Impl} {types : List Message} (he : Env env types) (im : Option (List Byte)) (aligned : Bool) (p : Place) (k : Kind)
    (s : Scalar) (hs : k.scalar types = some s) (sc : Scope) (v : Val) (hp : p.eval sc = some (.one k.elem, v)) (hv : s.has v = true) (c : WriteCursor) :
    (writeOne aligned p k).run env im sc c = s.write aligned v c := by
  cases k with
  | type n =>
    simp only [Kind.scalar, Option.map_eq_some_iff] at hs
    obtain ⟨m, hm, rfl⟩ := hs
    obtain ⟨i, hi, him⟩ := he.get hm
    simp only [Scalar.has] at hv
    simp only [writeOne, Stmt.run, hp, Kind.elem, implOf, hi, Scalar.write]
    exact writeComposite_congr him v hv c
  | prim q =>
    simp only [Kind.scalar, Option.some.injEq] at hs
    subst hs
    simp only [Scalar.has] at hv
    cases q <;> cases v <;> simp only [Prim.has, Bool.false_eq_true] at hv <;>
      simp only [writeOne, Scalar.write, Prim.word, Prim.write, Prim.bits]
    case boolean.bool b => cases b <;> simp [Stmt.run, hp]
    case utf8.num n => rw [callWrite_get env im aligned 8 _ sc (BitVec.ofNat 64 n) c (by simp [Num.eval, hp])]
    case byte.num n => rw [callWrite_get env im aligned 8 _ sc (BitVec.ofNat 64 n) c (by simp [Num.eval, hp])]
    case int.int bits z =>
      rw [callWrite_get env im aligned bits _ sc (((BitVec.ofInt 64 z).setWidth (roundUpIntegerSize bits)).setWidth 64) c (by simp [Num.eval, hp]),
        writeUIntAligned_cast, writeU_cast]
    case uint.num bits t n => rw [callWrite_get env im aligned bits _ sc (BitVec.ofNat 64 n) c (by simp [Num.eval, hp])]
    all_goals simp [Stmt.run, writeFloat, hp]

theorem Kind.isBool_iff {types : List Message} {k : Kind} {s : Scalar} (hs : k.scalar types = some s) : s.isBool = k.isBool := by
  cases k with
  | type n =>
    simp only [Kind.scalar, Option.map_eq_some_iff] at hs
    obtain ⟨m, hm, rfl⟩ := hs
    rfl
  | prim q =>
    simp only [Kind.scalar, Option.some.injEq] at hs
    subst hs
    cases q <;> rfl

theorem Kind.isByte_iff {types : List Message} {k : Kind} {s : Scalar} (hs : k.scalar types = some s) : s.isByte = k.isByte := by
  cases k with
  | type n =>
    simp only [Kind.scalar, Option.map_eq_some_iff] at hs
    obtain ⟨m, hm, rfl⟩ := hs
    rfl
  | prim q =>
    simp only [Kind.scalar, Option.some.injEq] at hs
    subst hs
    cases q <;> try rfl
    rename_i bits t
    unfold Scalar.isByte Kind.isByte
    by_cases h : bits = 8
    · subst h; rfl
    · split <;> split <;> simp_all

/-! ### A field -/

theorem writeEach_congr {f g : Val → WriteCursor → Option WriteCursor} (vs : List Val) (h : ∀ v ∈ vs, ∀ c, f v c = g v c) (c : WriteCursor) :
    writeEach f vs c = writeEach g vs c := by
  induction vs generalizing c with
  | nil => rfl
  | cons v vs ih =>
    simp only [writeEach]
    rw [h v (by simp) c]
    split
    · rfl
    · exact ih (fun w hw => h w (by simp [hw])) _

theorem writeMany_list {env : List Impl} {types : List Message} (he : Env env types) (im : Option (List Byte)) (p : Place) (k : Kind)
    (s : Scalar) (hs : k.scalar types = some s) (hb : k.isBool = false) (sc : Scope) (ty : Ty) (hty : ty.elem = some k.elem) (vs : List Val)
    (hp : p.eval sc = some (ty, .list vs)) (hv : vs.all s.has = true) (c : WriteCursor) :
    (writeMany p k).run env im sc c = writeElements s (s.write false) vs c := by
  unfold writeMany writeElements
  rw [hb, Kind.isByte_iff hs]
  simp only [Bool.false_eq_true, if_false]
  split
  · simp only [Stmt.run, hp]
  · simp only [Stmt.run, hp]
    apply writeEach_congr
    intro v hmem c
    refine writeOne_run he im false .value k s hs _ v ?_ ((List.all_eq_true.mp hv) v hmem) c
    simp [Place.eval, hty]

theorem writeMany_bits (env : List Impl) (im : Option (List Byte)) (p : Place) (k : Kind) (hb : k.isBool = true) (sc : Scope) (ty : Ty) (a : BitArray)
    (hp : p.eval sc = some (ty, .bits a)) (c : WriteCursor) : (writeMany p k).run env im sc c = a.serialize c := by
  unfold writeMany
  rw [hb]
  simp only [if_true, Stmt.run, hp]

theorem runAll_append (env : List Impl) (im : Option (List Byte)) (a b : List Stmt) (s : Scope) (c : WriteCursor) :
    runAll env im (a ++ b) s c = (runAll env im a s c).bind (runAll env im b s) := by
  induction a generalizing c with
  | nil => rfl
  | cons st a ih =>
    simp only [List.cons_append, runAll]
    split
    · rfl
    · exact ih _

theorem writeLength_run (env : List Impl) (im : Option (List Byte)) (aligned : Bool) (maxLen : Nat) (p : Place) (sc : Scope) (len : Nat)
    (hp : (Num.len p (roundUpIntegerSize (arrayLengthBits maxLen))).eval sc =
      some (((BitVec.ofNat 64 len).setWidth (roundUpIntegerSize (arrayLengthBits maxLen))).setWidth 64)) (c : WriteCursor) :
    (callWrite aligned (arrayLengthBits maxLen) (.len p (roundUpIntegerSize (arrayLengthBits maxLen)))).run env im sc c =
      writeLength aligned maxLen len c := by
  rw [callWrite_get env im aligned _ _ sc _ c hp, writeUIntAligned_cast, writeU_cast]
  rfl

theorem writeStmts_run {env : List Impl} {types : List Message} (he : Env env types) (im : Option (List Byte)) (aligned : Bool) (p : Place) (k : Kind)
    (a : Arity) (s : Scalar) (hs : k.scalar types = some s) (sc : Scope) (v : Val) (hp : p.eval sc = some (rustTy k a, v))
    (hv : hasField s.isBool s.has v a = true) (c : WriteCursor) :
    runAll env im (writeStmts aligned p k a) sc c = writeField s s.write aligned v c a := by
  have hb := Kind.isBool_iff hs
  cases a with
  | scalar =>
    simp only [writeStmts, runAll, writeField]
    simp only [hasField] at hv
    rw [writeOne_run he im aligned p k s hs sc v hp hv c]
    cases s.write aligned v c <;> rfl
  | fixed len =>
    cases v <;> simp only [hasField, Bool.false_eq_true] at hv <;> simp only [writeStmts, runAll, writeField]
    case bits b =>
      rw [Bool.and_eq_true, hb] at hv
      rw [writeMany_bits env im p k hv.1 sc _ b hp c]
      cases b.serialize c <;> rfl
    case list vs =>
      rw [Bool.and_eq_true, Bool.and_eq_true, hb] at hv
      have hb' : k.isBool = false := by simpa using hv.1.1
      rw [writeMany_list he im p k s hs hb' sc (rustTy k (.fixed len)) (by simp [rustTy, hb', Ty.elem]) vs hp hv.2 c]
      cases writeElements s (s.write false) vs c <;> rfl
  | var maxLen =>
    cases v <;> simp only [hasField, Bool.false_eq_true] at hv <;> simp only [writeStmts, runAll, writeField]
    case bits b =>
      rw [Bool.and_eq_true, hb] at hv
      rw [writeLength_run env im aligned maxLen p sc b.bitLength (by simp [Num.eval, hp]) c]
      cases writeLength aligned maxLen b.bitLength c with
      | none => rfl
      | some c =>
        dsimp only
        rw [writeMany_bits env im p k hv.1 sc _ b hp c]
        cases b.serialize c <;> rfl
    case list vs =>
      rw [Bool.and_eq_true, Bool.and_eq_true, hb] at hv
      have hb' : k.isBool = false := by simpa using hv.1.1
      rw [writeLength_run env im aligned maxLen p sc vs.length (by simp [Num.eval, hp]) c]
      cases writeLength aligned maxLen vs.length c with
      | none => rfl
      | some c =>
        dsimp only
        rw [writeMany_list he im p k s hs hb' sc (rustTy k (.var maxLen)) (by simp [rustTy, hb', Ty.elem]) vs hp hv.2 c]
        cases writeElements s (s.write false) vs c <;> rfl

/-! ### The fields of a struct -/

/-- The values of the fields are where the functions look for them. -/
def Located (sc : Scope) (fields : List (String × Ty)) (vs : List Val) : Prop :=
  ∀ f ∈ fields.zip vs, (Place.self f.1.1).eval sc = some (f.1.2, f.2)

theorem find_zip {fields : List (String × Ty)} {vs : List Val} (hn : (fields.map (·.1)).Nodup) {f : (String × Ty) × Val} (hf : f ∈ fields.zip vs) :
    (fields.zip vs).find? (fun g => g.1.1 = f.1.1) = some f := by
  induction fields generalizing vs with
  | nil => simp at hf
  | cons g fields ih =>
    cases vs with
    | nil => simp at hf
    | cons v vs =>
      simp only [List.map_cons, List.nodup_cons] at hn
      simp only [List.zip_cons_cons, List.mem_cons] at hf
      rcases hf with rfl | hf
      · simp
      · rw [List.zip_cons_cons, List.find?_cons_of_neg, ih hn.2 hf]
        intro e
        simp only [decide_eq_true_eq] at e
        apply hn.1
        rw [e]
        exact List.mem_map_of_mem (List.of_mem_zip hf).1

theorem located_structScope {fields : List (String × Ty)} {vs : List Val} (hn : (fields.map (·.1)).Nodup) :
    Located (structScope fields vs) fields vs := by
  intro f hf
  simp only [Place.eval, structScope]
  rw [find_zip hn hf]
  rfl

theorem fieldStmts_run {env : List Impl} {types : List Message} (he : Env env types) (im : Option (List Byte)) (sc : Scope) (ms : List Member)
    (fields : Fields) (hm : fieldsOf types ms = some fields) (l : Option BitLengthSet) (vs : List Val) (hl : Located sc (rustFields ms) vs)
    (hv : fields.has vs = true) (c : WriteCursor) :
    runAll env im (fieldStmts types ms l) sc c = fields.serialize l vs c := by
  induction ms generalizing fields l vs c with
  | nil =>
    simp only [fieldsOf, Option.some.injEq] at hm
    subst hm
    cases vs with
    | nil => rfl
    | cons v vs => simp [Fields.has] at hv
  | cons mb ms ih =>
    cases mb with
    | padding bits =>
      simp only [fieldsOf, Option.map_eq_some_iff] at hm
      obtain ⟨rest, hr, rfl⟩ := hm
      simp only [fieldStmts, runAll, Stmt.run, Fields.serialize]
      simp only [Fields.has] at hv
      cases c.skipBits bits with
      | none => rfl
      | some c => exact ih rest hr _ vs hl hv c
    | data name k a =>
      simp only [fieldsOf] at hm
      split at hm
      next s rest hs hr =>
        simp only [Option.some.injEq] at hm
        subst hm
        cases vs with
        | nil => simp [Fields.has] at hv
        | cons v vs =>
          simp only [Fields.has, Bool.and_eq_true] at hv
          simp only [fieldStmts, Fields.serialize, hs, Option.map_some]
          rw [runAll_append, writeStmts_run he im (alwaysAligned l) (.self name) k a s hs sc v
            (hl ((name, rustTy k a), v) (by simp [rustFields])) hv.1 c]
          cases writeField s s.write (alwaysAligned l) v c a with
          | none => rfl
          | some c => exact ih rest hr _ vs (fun f hf => hl f (by simp [rustFields, hf])) hv.2 c
      next => cases hm

/-! ### Sizes -/

theorem sumTerms_append (env : List Impl) (s : Scope) (a b : List Term) : sumTerms env s (a ++ b) = sumTerms env s a + sumTerms env s b := by
  simp [sumTerms, List.sum_append]

theorem sizeOne_eval {env : List Impl} {types : List Message} (he : Env env types) (p : Place) (k : Kind) (s : Scalar)
    (hs : k.scalar types = some s) (sc : Scope) (v : Val) (hp : p.eval sc = some (.one k.elem, v)) (hv : s.has v = true) :
    sumTerms env sc (sizeOne p s) = s.sizeBits v := by
  cases k with
  | prim q =>
    simp only [Kind.scalar, Option.some.injEq] at hs
    subst hs
    simp [sizeOne, sumTerms, Term.eval, Scalar.sizeBits]
  | type n =>
    simp only [Kind.scalar, Option.map_eq_some_iff] at hs
    obtain ⟨m, hm, rfl⟩ := hs
    obtain ⟨i, hi, him⟩ := he.get hm
    simp only [Scalar.has] at hv
    simp only [sizeOne, Scalar.sizeBits]
    rw [sumTerms_append]
    congr 1
    · unfold headerBits
      split <;> simp [sumTerms, Term.eval]
    · split
      · simp [sumTerms, Term.eval]
      · simp [sumTerms, Term.eval, hp, Kind.elem, implOf, hi, him.size v hv]

theorem sizeMany_eval {env : List Impl} {types : List Message} (he : Env env types) (p : Place) (k : Kind) (s : Scalar)
    (hs : k.scalar types = some s) (sc : Scope) (ty : Ty) (v : Val) (hp : p.eval sc = some (ty, v))
    (hty : k.isBool = true ∨ ty.elem = some k.elem) (hv : ∀ w ∈ v.elements, s.has w = true) :
    (sizeMany p s).eval env sc = elementSizes s s.size s.sizeBits v := by
  unfold sizeMany elementSizes
  split
  next => simp [Term.eval, hp]
  next hne =>
    cases k with
    | prim q =>
      simp only [Kind.scalar, Option.some.injEq] at hs
      subst hs
      exact absurd (by simp only [Scalar.size]; rfl) hne
    | type n =>
      simp only [Kind.scalar, Option.map_eq_some_iff] at hs
      obtain ⟨m, hm, rfl⟩ := hs
      obtain ⟨i, hi, him⟩ := he.get hm
      have hty' : ty.elem = some (.type n) := by
        rcases hty with h | h
        · cases h
        · exact h
      simp only [Term.eval, hp, hty', Option.bind_some, implOf, hi]
      congr 1
      apply List.map_congr_left
      intro w hw
      have := hv w hw
      simp only [Scalar.has] at this
      rw [him.size w this]
      simp only [Scalar.sizeBits, Scalar.extent, headerBits]
      simp only [Scalar.size] at hne
      rw [if_neg hne]
      rfl

theorem elements_has {isBool : Bool} {one : Val → Bool} {v : Val} {a : Arity} (ha : a ≠ .scalar) (h : hasField isBool one v a = true) :
    ∀ w ∈ v.elements, one w = true := by
  cases a with
  | scalar => exact absurd rfl ha
  | fixed len =>
    cases v <;> simp only [Val.elements, List.not_mem_nil, false_implies, implies_true]
    simp only [hasField, Bool.and_eq_true, List.all_eq_true] at h
    exact h.2
  | var len =>
    cases v <;> simp only [Val.elements, List.not_mem_nil, false_implies, implies_true]
    simp only [hasField, Bool.and_eq_true, List.all_eq_true] at h
    exact h.2

theorem rustTy_elem (k : Kind) (a : Arity) (ha : a ≠ .scalar) : k.isBool = true ∨ (rustTy k a).elem = some k.elem := by
  cases h : k.isBool with
  | true => exact .inl rfl
  | false => cases a <;> simp_all [rustTy, Ty.elem]

theorem sizeTerms_eval {env : List Impl} {types : List Message} (he : Env env types) (p : Place) (k : Kind) (a : Arity) (s : Scalar)
    (hs : k.scalar types = some s) (sc : Scope) (v : Val) (hp : p.eval sc = some (rustTy k a, v)) (hv : hasField s.isBool s.has v a = true) :
    sumTerms env sc (sizeTerms p s a) = fieldSize s s.size s.sizeBits v a := by
  cases a with
  | scalar => exact sizeOne_eval he p k s hs sc v hp hv
  | fixed len =>
    have := sizeMany_eval he p k s hs sc _ v hp (rustTy_elem k _ (by simp)) (elements_has (by simp) hv)
    simp [sizeTerms, sumTerms, fieldSize, this]
  | var maxLen =>
    have := sizeMany_eval he p k s hs sc _ v hp (rustTy_elem k _ (by simp)) (elements_has (by simp) hv)
    simp only [sizeTerms, sumTerms, fieldSize, List.map_cons, List.map_nil, List.sum_cons, List.sum_nil, Nat.add_zero, this]
    rfl

theorem fieldTerms_eval {env : List Impl} {types : List Message} (he : Env env types) (sc : Scope) (ms : List Member) (fields : Fields)
    (hm : fieldsOf types ms = some fields) (vs : List Val) (hl : Located sc (rustFields ms) vs) (hv : fields.has vs = true) :
    sumTerms env sc (fieldTerms types ms) = fields.sizeBits vs := by
  induction ms generalizing fields vs with
  | nil =>
    simp only [fieldsOf, Option.some.injEq] at hm
    subst hm
    rfl
  | cons mb ms ih =>
    cases mb with
    | padding bits =>
      simp only [fieldsOf, Option.map_eq_some_iff] at hm
      obtain ⟨rest, hr, rfl⟩ := hm
      simp only [Fields.has] at hv
      simp only [fieldTerms, Fields.sizeBits]
      rw [← ih rest hr vs hl hv]
      simp [sumTerms, Term.eval]
    | data name k a =>
      simp only [fieldsOf] at hm
      split at hm
      next s rest hs hr =>
        simp only [Option.some.injEq] at hm
        subst hm
        cases vs with
        | nil => simp [Fields.has] at hv
        | cons v vs =>
          simp only [Fields.has, Bool.and_eq_true] at hv
          simp only [fieldTerms, Fields.sizeBits, hs, List.headD_cons, List.tail_cons]
          rw [sumTerms_append, ih rest hr vs (fun f hf => hl f (by simp [rustFields, hf])) hv.2,
            sizeTerms_eval he (.self name) k a s hs sc v (hl ((name, rustTy k a), v) (by simp [rustFields])) hv.1]
      next => cases hm

/-! ### Reading -/

theorem implReader_eq {i : Impl} {m : Message} (h : Implements i m) : i.reader = ⟨m.extent.map (· / 8), m.deserialize⟩ := by
  unfold Impl.reader
  rw [h.extent, funext h.de]

theorem readOne_run {env : List Impl} {types : List Message} (he : Env env types) (k : Kind) (s : Scalar) (hs : k.scalar types = some s)
    (c : ReadCursor) : (readOne k).run env k.elem c = s.read c := by
  cases k with
  | type n =>
    simp only [Kind.scalar, Option.map_eq_some_iff] at hs
    obtain ⟨m, hm, rfl⟩ := hs
    obtain ⟨i, hi, him⟩ := he.get hm
    simp only [readOne, Get.run, Kind.elem, implOf, hi, Scalar.read]
    rw [implReader_eq him]
  | prim q =>
    simp only [Kind.scalar, Option.some.injEq] at hs
    subst hs
    cases q <;> simp [readOne, Get.run, Kind.elem, Scalar.read, Prim.read, Prim.bits, returnWidth, roundUpIntegerSize] <;> rfl

theorem readTimes_length {one : ReadCursor → Rd Val} {n : Nat} {c c' : ReadCursor} {vs : List Val} (h : readTimes one n c = some (.ok vs, c')) :
    vs.length = n := by
  induction n generalizing c c' vs with
  | zero =>
    simp only [readTimes, Option.some.injEq, Prod.mk.injEq, Except.ok.injEq] at h
    simp [← h.1]
  | succ n ih =>
    simp only [readTimes, andThen] at h
    split at h
    · cases h
    · simp at h
    · split at h
      · cases h
      · simp at h
      next h2 =>
        simp only [Option.some.injEq, Prod.mk.injEq, Except.ok.injEq] at h
        rw [← h.1, List.length_cons, ih h2]

theorem getAll_replicate (env : List Impl) (e : Elem) (g : Get) (one : ReadCursor → Rd Val) (h : ∀ c, g.run env e c = one c) (n : Nat) (c : ReadCursor) :
    getAll env e (List.replicate n g) c = readTimes one n c := by
  induction n generalizing c with
  | zero => rfl
  | succ n ih =>
    rw [List.replicate_succ]
    simp only [getAll, readTimes, h, ih]

theorem readExpr_run {env : List Impl} {types : List Message} (he : Env env types) (k : Kind) (a : Arity) (s : Scalar)
    (hs : k.scalar types = some s) (c : ReadCursor) : (readExpr k a).run env (rustTy k a) c = readField s s.read c a := by
  have hb := Kind.isBool_iff hs
  have hone := readOne_run he k s hs
  cases a with
  | scalar => exact hone c
  | fixed len =>
    simp only [readExpr, rustTy, readField, hb]
    cases hk : k.isBool with
    | true => simp [Expr.run]
    | false =>
      simp only [Bool.false_eq_true, if_false, Expr.run]
      rw [getAll_replicate env k.elem (readOne k) s.read hone]
  | var maxLen =>
    simp only [readExpr, rustTy, readField, hb]
    have hfun : (fun c => (readOne k).run env k.elem c) = s.read := funext hone
    cases hk : k.isBool with
    | true =>
      simp only [if_true, Expr.run]
      cases readUInt (arrayLengthBits maxLen) c <;> rfl
    | false =>
      simp only [Bool.false_eq_true, if_false, Expr.run, hfun]
      cases readUInt (arrayLengthBits maxLen) c with
      | none => rfl
      | some r =>
        obtain ⟨length, c⟩ := r
        dsimp only
        split
        next hle =>
          cases h : readTimes s.read (asI32 length).toNat c with
          | none => rfl
          | some r =>
            obtain ⟨r, c'⟩ := r
            cases r with
            | error e => rfl
            | ok vs =>
              simp only [andThen]
              rw [List.take_of_length_le]
              rw [readTimes_length h]
              omega
        · rfl

theorem fieldTy_mem {fields : List (String × Ty)} (hn : (fields.map (·.1)).Nodup) {f : String × Ty} (hf : f ∈ fields) : fieldTy fields f.1 = some f.2 := by
  unfold fieldTy
  induction fields with
  | nil => cases hf
  | cons g fields ih =>
    simp only [List.map_cons, List.nodup_cons] at hn
    rcases List.mem_cons.mp hf with rfl | hf
    · simp
    · rw [List.find?_cons_of_neg, ih hn.2 hf]
      intro e
      simp only [decide_eq_true_eq] at e
      apply hn.1
      rw [e]
      exact List.mem_map_of_mem hf

/-- The struct literal has the fields that are read, with their names. -/
theorem fieldInits_run {env : List Impl} {types : List Message} (he : Env env types) (all : List (String × Ty)) (ms : List Member) (fields : Fields)
    (hm : fieldsOf types ms = some fields) (ha : ∀ f ∈ rustFields ms, fieldTy all f.1 = some f.2) (pending : List Nat) (c : ReadCursor) :
    initAll env all (fieldInits ms pending) c =
      andThen (fields.deserialize pending c) fun vs c => some (.ok (((rustFields ms).map (·.1)).zip vs), c) := by
  induction ms generalizing fields pending c with
  | nil =>
    simp only [fieldsOf, Option.some.injEq] at hm
    subst hm
    rfl
  | cons mb ms ih =>
    cases mb with
    | padding bits =>
      simp only [fieldsOf, Option.map_eq_some_iff] at hm
      obtain ⟨rest, hr, rfl⟩ := hm
      exact ih rest hr ha _ c
    | data name k a =>
      simp only [fieldsOf] at hm
      split at hm
      next s rest hs hr =>
        simp only [Option.some.injEq] at hm
        subst hm
        simp only [fieldInits, initAll, ha (name, rustTy k a) (by simp [rustFields]), Fields.deserialize, rustFields, List.map_cons]
        rw [readExpr_run he k a s hs]
        cases readField s s.read (pending.foldl ReadCursor.advanceBits c) a with
        | none => rfl
        | some r =>
          obtain ⟨r, c⟩ := r
          cases r with
          | error e => rfl
          | ok v =>
            simp only [andThen]
            rw [ih rest hr (fun f hf => ha f (by simp [rustFields, hf])) [] c]
            cases rest.deserialize [] c with
            | none => rfl
            | some r =>
              obtain ⟨r, c⟩ := r
              cases r <;> rfl
      next => cases hm

theorem fields_deserialize_length {types : List Message} (ms : List Member) (fields : Fields) (hm : fieldsOf types ms = some fields) (pending : List Nat)
    (c c' : ReadCursor) (vs : List Val) (h : fields.deserialize pending c = some (.ok vs, c')) : vs.length = (rustFields ms).length := by
  induction ms generalizing fields pending c c' vs with
  | nil =>
    simp only [fieldsOf, Option.some.injEq] at hm
    subst hm
    simp only [Fields.deserialize, Option.some.injEq, Prod.mk.injEq, Except.ok.injEq] at h
    simp [← h.1, rustFields]
  | cons mb ms ih =>
    cases mb with
    | padding bits =>
      simp only [fieldsOf, Option.map_eq_some_iff] at hm
      obtain ⟨rest, hr, rfl⟩ := hm
      exact ih rest hr _ c c' vs h
    | data name k a =>
      simp only [fieldsOf] at hm
      split at hm
      next s rest hs hr =>
        simp only [Option.some.injEq] at hm
        subst hm
        simp only [Fields.deserialize, andThen] at h
        split at h
        · cases h
        · simp at h
        · split at h
          · cases h
          · simp at h
          next h2 =>
            simp only [Option.some.injEq, Prod.mk.injEq, Except.ok.injEq] at h
            rw [← h.1, List.length_cons, ih rest hr _ _ _ _ h2]
            rfl
      next => cases hm

theorem arm_zip {fields : List (String × Ty)} (hn : (fields.map (·.1)).Nodup) (vs : List Val) (hl : vs.length = fields.length) :
    literal fields ((fields.map (·.1)).zip vs) = some vs := by
  unfold literal
  suffices ∀ (pre : List (String × Val)) (fs : List (String × Ty)) (ws : List Val), ws.length = fs.length →
      (∀ f ∈ fs, ∀ q ∈ pre, q.1 ≠ f.1) → (fs.map (·.1)).Nodup →
      fs.mapM (fun f => arm (pre ++ (fs.map (·.1)).zip ws) f.1) = some ws by
    simpa using this [] fields vs hl (by simp) hn
  intro pre fs
  induction fs generalizing pre with
  | nil =>
    intro ws hl _ _
    cases ws with
    | nil => rfl
    | cons => simp at hl
  | cons f fs ih =>
    intro ws hl hd hn
    cases ws with
    | nil => simp at hl
    | cons w ws =>
      simp only [List.map_cons, List.nodup_cons] at hn
      rw [List.mapM_cons]
      have h1 : arm (pre ++ (((f :: fs).map (·.1)).zip (w :: ws))) f.1 = some w := by
        unfold arm
        rw [List.find?_append, List.find?_eq_none.mpr (by intro q hq; simpa using hd f (by simp) q hq)]
        simp
      rw [h1]
      have h2 := ih (pre ++ [(f.1, w)]) ws (by simpa using hl) (by
        intro g hg q hq
        rcases List.mem_append.mp hq with hq | hq
        · exact hd g (by simp [hg]) q hq
        · simp only [List.mem_singleton] at hq
          subst hq
          intro e
          simp only [] at e
          apply hn.1
          rw [e]
          exact List.mem_map_of_mem hg) hn.2
      rw [List.append_assoc] at h2
      simp only [List.map_cons, List.zip_cons_cons, List.singleton_append] at h2 ⊢
      rw [h2]
      rfl

/-! ### Bytes in memory -/

theorem elem_image {env : List Impl} {types : List Message} (he : Env env types) (k : Kind) (s : Scalar) (hs : k.scalar types = some s)
    (hz : s.zeroCopy = true) (v : Val) (hv : s.has v = true) : k.elem.image env v = s.image v := by
  cases k with
  | type n =>
    simp only [Kind.scalar, Option.map_eq_some_iff] at hs
    obtain ⟨m, hm, rfl⟩ := hs
    obtain ⟨i, hi, him⟩ := he.get hm
    simp only [Scalar.zeroCopy] at hz
    simp only [Scalar.has] at hv
    simp only [Kind.elem, Elem.image, hi, Scalar.image]
    exact him.image hz v hv
  | prim q =>
    simp only [Kind.scalar, Option.some.injEq] at hs
    subst hs
    simp only [Scalar.zeroCopy] at hz
    simp only [Scalar.has] at hv
    cases q <;> cases v <;> simp only [Prim.has, Bool.false_eq_true] at hv <;>
      simp only [Prim.zeroCopy, Bool.false_eq_true, Bool.or_eq_true, beq_iff_eq] at hz <;>
      simp [Kind.elem, Elem.image, Scalar.image, Prim.word, Prim.bits]
    all_goals rcases hz with ((h | h) | h) | h <;> subst h <;> rfl

theorem imageEach_congr {f g : Val → Option (List Byte)} (vs : List Val) (h : ∀ v ∈ vs, f v = g v) : imageEach f vs = imageEach g vs := by
  induction vs with
  | nil => rfl
  | cons v vs ih =>
    simp only [imageEach]
    rw [h v (by simp), ih fun w hw => h w (by simp [hw])]

theorem imageFields_eq {env : List Impl} {types : List Message} (he : Env env types) (ms : List Member) (fields : Fields)
    (hm : fieldsOf types ms = some fields) (hz : fields.zeroCopy = true) (vs : List Val) (hv : fields.has vs = true) :
    imageFields env (rustFields ms) vs = fields.image vs := by
  induction ms generalizing fields vs with
  | nil =>
    simp only [fieldsOf, Option.some.injEq] at hm
    subst hm
    cases vs with
    | nil => rfl
    | cons v vs => simp [Fields.has] at hv
  | cons mb ms ih =>
    cases mb with
    | padding bits =>
      simp only [fieldsOf, Option.map_eq_some_iff] at hm
      obtain ⟨rest, hr, rfl⟩ := hm
      simp [Fields.zeroCopy] at hz
    | data name k a =>
      simp only [fieldsOf] at hm
      split at hm
      next s rest hs hr =>
        simp only [Option.some.injEq] at hm
        subst hm
        have hb := Kind.isBool_iff hs
        simp only [Fields.zeroCopy, Bool.and_eq_true] at hz
        cases vs with
        | nil => simp [Fields.has] at hv
        | cons v vs =>
          simp only [Fields.has, Bool.and_eq_true] at hv
          simp only [rustFields, imageFields, Fields.image]
          rw [ih rest hr hz.2 vs hv.2]
          cases a with
          | scalar =>
            simp only [rustTy, Ty.image]
            rw [elem_image he k s hs hz.1 v hv.1]
            rfl
          | fixed len =>
            have hk : k.isBool = false := by
              cases hk : k.isBool with
              | false => rfl
              | true =>
                have : k = .prim .boolean := by simpa [Kind.isBool] using hk
                subst this
                simp only [Kind.scalar, Option.some.injEq] at hs
                subst hs
                simp [Arity.zeroCopy, Scalar.zeroCopy, Prim.zeroCopy] at hz
            simp only [rustTy, hk, Bool.false_eq_true, if_false]
            have h1 := hv.1
            cases v <;> simp only [hasField, Bool.false_eq_true] at h1
            case bits b => rw [Bool.and_eq_true, hb, hk] at h1; cases h1.1
            case list es =>
              rw [Bool.and_eq_true, List.all_eq_true] at h1
              simp only [Ty.image]
              rw [imageEach_congr es fun w hw => elem_image he k s hs hz.1 w (h1.2 w hw)]
              rfl
          | var len => simp [Arity.zeroCopy] at hz
      next => cases hm

theorem elem_load {env : List Impl} {types : List Message} (he : Env env types) (k : Kind) (s : Scalar) (hs : k.scalar types = some s)
    (hz : s.zeroCopy = true) (bs : List Byte) : k.elem.load env bs = s.load bs := by
  cases k with
  | type n =>
    simp only [Kind.scalar, Option.map_eq_some_iff] at hs
    obtain ⟨m, hm, rfl⟩ := hs
    obtain ⟨i, hi, him⟩ := he.get hm
    simp only [Scalar.zeroCopy] at hz
    simp only [Kind.elem, Elem.load, hi, Scalar.load]
    exact him.load hz bs
  | prim q =>
    simp only [Kind.scalar, Option.some.injEq] at hs
    subst hs
    simp only [Scalar.zeroCopy] at hz
    cases q <;> simp only [Prim.zeroCopy, Bool.false_eq_true, Bool.or_eq_true, beq_iff_eq] at hz
    case int bits => rcases hz with ((h | h) | h) | h <;> subst h <;> rfl
    case uint bits t => rcases hz with ((h | h) | h) | h <;> subst h <;> rfl
    all_goals rfl

theorem elem_mem {env : List Impl} {types : List Message} (he : Env env types) (k : Kind) (s : Scalar) (hs : k.scalar types = some s)
    (hz : s.zeroCopy = true) : k.elem.memSize env = s.memSize := by
  cases k with
  | type n =>
    simp only [Kind.scalar, Option.map_eq_some_iff] at hs
    obtain ⟨m, hm, rfl⟩ := hs
    obtain ⟨i, hi, him⟩ := he.get hm
    simp only [Scalar.zeroCopy] at hz
    simp only [Kind.elem, Elem.memSize, hi, Scalar.memSize]
    exact him.mem hz
  | prim q =>
    simp only [Kind.scalar, Option.some.injEq] at hs
    subst hs
    simp only [Scalar.zeroCopy] at hz
    cases q <;> simp only [Prim.zeroCopy, Bool.false_eq_true, Bool.or_eq_true, beq_iff_eq] at hz
    case int bits => rcases hz with ((h | h) | h) | h <;> subst h <;> rfl
    case uint bits t => rcases hz with ((h | h) | h) | h <;> subst h <;> rfl
    all_goals rfl

theorem not_bool_of_zeroCopy {types : List Message} {k : Kind} {s : Scalar} (hs : k.scalar types = some s) (hz : s.zeroCopy = true) :
    k.isBool = false := by
  cases hk : k.isBool with
  | false => rfl
  | true =>
    have : k = .prim .boolean := by simpa [Kind.isBool] using hk
    subst this
    simp only [Kind.scalar, Option.some.injEq] at hs
    subst hs
    simp [Scalar.zeroCopy, Prim.zeroCopy] at hz

theorem loadFields_eq {env : List Impl} {types : List Message} (he : Env env types) (ms : List Member) (fields : Fields)
    (hm : fieldsOf types ms = some fields) (hz : fields.zeroCopy = true) :
    (∀ bs, loadFields env (rustFields ms) bs = fields.load bs) ∧ ((rustFields ms).map fun f => f.2.memSize env).sum = fields.memSize := by
  induction ms generalizing fields with
  | nil =>
    simp only [fieldsOf, Option.some.injEq] at hm
    subst hm
    exact ⟨fun bs => rfl, rfl⟩
  | cons mb ms ih =>
    cases mb with
    | padding bits =>
      simp only [fieldsOf, Option.map_eq_some_iff] at hm
      obtain ⟨rest, hr, rfl⟩ := hm
      simp [Fields.zeroCopy] at hz
    | data name k a =>
      simp only [fieldsOf] at hm
      split at hm
      next s rest hs hr =>
        simp only [Option.some.injEq] at hm
        subst hm
        simp only [Fields.zeroCopy, Bool.and_eq_true] at hz
        obtain ⟨ih1, ih2⟩ := ih rest hr hz.2
        have hfun : ∀ (h : s.zeroCopy = true), k.elem.load env = s.load := fun h => funext (elem_load he k s hs h)
        cases a with
        | scalar =>
          refine ⟨fun bs => ?_, ?_⟩
          · simp only [rustFields, loadFields, Fields.load, rustTy, Ty.load, hfun hz.1, ih1]
          · rw [rustFields, List.map_cons, List.sum_cons, ih2]
            simp only [Fields.memSize, rustTy, Ty.memSize, elem_mem he k s hs hz.1]
        | fixed len =>
          have hk := not_bool_of_zeroCopy hs hz.1
          refine ⟨fun bs => ?_, ?_⟩
          · simp only [rustFields, loadFields, Fields.load, rustTy, hk, Bool.false_eq_true, if_false, Ty.load, hfun hz.1, ih1]
          · rw [rustFields, List.map_cons, List.sum_cons, ih2]
            simp only [Fields.memSize, rustTy, hk, Bool.false_eq_true, if_false, Ty.memSize, elem_mem he k s hs hz.1]
        | var len => simp [Arity.zeroCopy] at hz
      next => cases hm

theorem zeroCopy_of_nested (fields : Fields) (l : Option BitLengthSet) (h : fields.nestedZeroCopy l = true) : fields.zeroCopy = true := by
  match fields with
  | .nil => rfl
  | .padding _ _ => simp [Fields.nestedZeroCopy] at h
  | .data s a rest =>
    simp only [Fields.nestedZeroCopy, Bool.and_eq_true] at h
    simp only [Fields.zeroCopy, Bool.and_eq_true]
    exact ⟨h.1.2, zeroCopy_of_nested rest _ h.2⟩

/-! ### Unions -/

/-- Variant `i`: what the definition and the compiled type have there. -/
theorem variantsOf_get {types : List Message} (vs : List (String × Kind × Arity)) (variants : Variants) (hm : variantsOf types vs = some variants)
    (i : Nat) (v : Val) (hv : variants.has i v = true) :
    ∃ name k a s, vs[i]? = some (name, k, a) ∧ k.scalar types = some s ∧ hasField s.isBool s.has v a = true ∧
      variants.sizeBits i v = fieldSize s s.size s.sizeBits v a ∧ ∀ c, variants.serialize i v c = writeField s s.write true v c a := by
  induction vs generalizing variants i with
  | nil =>
    simp only [variantsOf, Option.some.injEq] at hm
    subst hm
    simp [Variants.has] at hv
  | cons x vs ih =>
    obtain ⟨name, k, a⟩ := x
    simp only [variantsOf] at hm
    split at hm
    next s rest hs hr =>
      simp only [Option.some.injEq] at hm
      subst hm
      cases i with
      | zero =>
        simp only [Variants.has] at hv
        exact ⟨name, k, a, s, rfl, hs, hv, by simp [Variants.sizeBits], fun c => by simp [Variants.serialize]⟩
      | succ i =>
        simp only [Variants.has] at hv
        obtain ⟨name', k', a', s', h1, h2, h3, h4, h5⟩ := ih rest hr i hv
        exact ⟨name', k', a', s', by simpa using h1, h2, h3, by simpa [Variants.sizeBits] using h4, fun c => by simpa [Variants.serialize] using h5 c⟩
    next => cases hm

theorem variantsOf_count {types : List Message} (vs : List (String × Kind × Arity)) (variants : Variants) (hm : variantsOf types vs = some variants) :
    variants.count = vs.length := by
  induction vs generalizing variants with
  | nil =>
    simp only [variantsOf, Option.some.injEq] at hm
    subst hm
    rfl
  | cons x vs ih =>
    obtain ⟨name, k, a⟩ := x
    simp only [variantsOf] at hm
    split at hm
    next s rest hs hr =>
      simp only [Option.some.injEq] at hm
      subst hm
      simp [Variants.count, ih rest hr]
    next => cases hm

theorem arm_get {α : Type} {arms : List (String × α)} (hn : (arms.map (·.1)).Nodup) {i : Nat} {name : String} {x : α} (h : arms[i]? = some (name, x)) :
    arm arms name = some x := by
  unfold arm
  induction arms generalizing i with
  | nil => simp at h
  | cons y arms ih =>
    simp only [List.map_cons, List.nodup_cons] at hn
    cases i with
    | zero =>
      simp only [List.getElem?_cons_zero, Option.some.injEq] at h
      subst h
      simp
    | succ i =>
      simp only [List.getElem?_cons_succ] at h
      rw [List.find?_cons_of_neg, ih hn.2 h]
      intro e
      simp only [decide_eq_true_eq] at e
      apply hn.1
      rw [e]
      exact List.mem_map_of_mem (List.mem_of_getElem? h)

theorem variantArms_names (tagBits : Nat) (vs : List (String × Kind × Arity)) (j : Nat) : (variantArms tagBits vs j).map (·.1) = vs.map (·.1) := by
  induction vs generalizing j with
  | nil => rfl
  | cons x vs ih => simp [variantArms, ih]

theorem variantArms_get (tagBits : Nat) (vs : List (String × Kind × Arity)) (j i : Nat) {name : String} {k : Kind} {a : Arity}
    (h : vs[i]? = some (name, k, a)) :
    (variantArms tagBits vs j)[i]? = some (name, callWrite true tagBits (.lit (j + i)) :: writeStmts true .inner k a) := by
  induction vs generalizing j i with
  | nil => simp at h
  | cons x vs ih =>
    cases i with
    | zero =>
      simp only [List.getElem?_cons_zero, Option.some.injEq] at h
      subst h
      simp [variantArms]
    | succ i =>
      simp only [List.getElem?_cons_succ] at h
      simp only [variantArms, List.getElem?_cons_succ]
      rw [ih (j + 1) i h]
      congr 5
      omega

/-- The arms from number `k` on: the variants from there on, with the names of all of them. -/
theorem tagArms_run {env : List Impl} {types : List Message} (he : Env env types) (all : List (String × Ty)) (hn : (all.map (·.1)).Nodup)
    (vs : List (String × Kind × Arity)) (variants : Variants) (hm : variantsOf types vs = some variants) (j : Nat)
    (ha : ∀ i x, vs[i]? = some x → all[j + i]? = some (x.1, rustTy x.2.1 x.2.2)) (tag : Nat) (c : ReadCursor) :
    matchArms env all tag c (tagArms vs j) = variants.deserialize j tag c := by
  induction vs generalizing variants j with
  | nil =>
    simp only [variantsOf, Option.some.injEq] at hm
    subst hm
    rfl
  | cons x vs ih =>
    obtain ⟨name, k, a⟩ := x
    simp only [variantsOf] at hm
    split at hm
    next s rest hs hr =>
      simp only [Option.some.injEq] at hm
      subst hm
      simp only [tagArms, matchArms, Variants.deserialize]
      have h0 := ha 0 _ rfl
      simp only [Nat.add_zero] at h0
      have hidx : all.findIdx (fun f => f.1 = name) = j := by
        obtain ⟨hj, hget⟩ := List.getElem?_eq_some_iff.mp h0
        rw [List.findIdx_eq hj]
        refine ⟨by simp [hget], fun i hi => ?_⟩
        simp only [decide_eq_false_iff_not]
        intro e
        have hne := List.pairwise_iff_getElem.mp hn i j (by simp; omega) (by simpa using hj) hi
        simp only [List.getElem_map, hget] at hne
        exact hne e
      split
      next =>
        rw [fieldTy_mem hn (List.mem_of_getElem? h0), hidx]
        simp only []
        rw [readExpr_run he k a s hs]
      next =>
        exact ih rest hr (j + 1) (fun i x h => by rw [← ha (i + 1) x (by simpa using h)]; congr 1; omega)
    next => cases hm

/-! ### The type -/

/-- **The generated type does what the model of the generator says**, if the names of its fields or variants are different. -/
theorem generated_implements {env : List Impl} {types : List Message} (he : Env env types) (d : Definition) (m : Message)
    (hm : d.message types = some m) (hn : d.body.names.Nodup) : Implements ((d.code types m).impl env) m := by
  obtain ⟨extent, request, body⟩ := d
  cases body with
  | struct ms =>
    simp only [Definition.message, Option.map_eq_some_iff] at hm
    obtain ⟨fields, hf, rfl⟩ := hm
    have hnames : ((rustFields ms).map (·.1)).Nodup := by
      have : (rustFields ms).map (·.1) = Body.names (.struct ms) := by
        clear hf hn
        induction ms with
        | nil => rfl
        | cons x ms ih =>
          simp only [Body.names] at ih
          cases x <;> simp [rustFields, Body.names, ih]
      rw [this]
      exact hn
    have hzn : (Message.struct extent request fields).nestedZeroCopy = true → (Message.struct extent request fields).zeroCopy = true := by
      intro h
      simp only [Message.nestedZeroCopy, Bool.and_eq_true] at h
      simp only [Message.zeroCopy, Bool.and_eq_true]
      exact ⟨h.1, zeroCopy_of_nested fields _ h.2⟩
    have hzf : (Message.struct extent request fields).zeroCopy = true → fields.zeroCopy = true := by
      intro h
      simp only [Message.zeroCopy, Bool.and_eq_true] at h
      exact h.2
    have himg : (Message.struct extent request fields).zeroCopy = true → ∀ v, (Message.struct extent request fields).has v = true →
        Shape.image env (.struct true (rustFields ms)) v = (Message.struct extent request fields).image v := by
      intro h v hv
      cases v <;> simp only [Message.has, Bool.false_eq_true] at hv
      rename_i vs
      simp only [Shape.image, Message.image]
      exact imageFields_eq he ms fields hf (hzf h) vs hv
    have hload : (Message.struct extent request fields).zeroCopy = true → ∀ bs,
        Shape.load env (.struct true (rustFields ms)) bs = (Message.struct extent request fields).load bs := by
      intro h bs
      simp only [Shape.load, Message.load, (loadFields_eq he ms fields hf (hzf h)).1]
    have hmem : (Message.struct extent request fields).zeroCopy = true →
        Shape.memSize env (.struct true (rustFields ms)) = (Message.struct extent request fields).memSize := by
      intro h
      simp only [Shape.memSize, Message.memSize, (loadFields_eq he ms fields hf (hzf h)).2]
    refine ⟨rfl, ?_, ?_, ?_, ?_, ?_, ?_⟩
    · intro v hv
      cases v <;> simp only [Message.has, Bool.false_eq_true] at hv
      rename_i vs
      simp only [Code.impl, Definition.code, SizeBlock.eval, Val.fields, Message.sizeBits]
      split
      next h => simp [sumTerms, Term.eval]
      next h =>
        rw [sumTerms_append, fieldTerms_eval he _ ms fields hf vs (located_structScope hnames) hv]
        simp [sumTerms, Term.eval]
    · intro v c hv
      cases v <;> simp only [Message.has, Bool.false_eq_true] at hv
      rename_i vs
      simp only [Code.impl, Definition.code, Block.run, Message.serialize]
      cases hz : (Message.struct extent request fields).zeroCopy with
      | true =>
        have e := himg hz (.record vs) (by simpa [Message.has] using hv)
        simp only [if_true, runAll, Stmt.run, e, Message.image]
        cases fields.image vs with
        | none => rfl
        | some bytes =>
          simp only []
          cases c.writeAlignedBytes bytes <;> rfl
      | false =>
        simp only [Bool.false_eq_true, if_false]
        exact fieldStmts_run he _ _ ms fields hf none vs (located_structScope hnames) hv c
    · intro c
      simp only [Code.impl, Definition.code, Message.deserialize]
      cases hz : (Message.struct extent request fields).zeroCopy with
      | true =>
        have hfun : Shape.load env (.struct true (rustFields ms)) = (Message.struct extent request fields).load := funext (hload hz)
        simp only [if_true, Reading.run, hfun, hmem hz, Message.load, Message.memSize]
      | false =>
        simp only [Bool.false_eq_true, if_false, Reading.run]
        rw [fieldInits_run he (rustFields ms) ms fields hf (fun f hf => fieldTy_mem hnames hf) [] c]
        cases hd : fields.deserialize [] c with
        | none => rfl
        | some r =>
          obtain ⟨r, c'⟩ := r
          cases r with
          | error e => rfl
          | ok vs =>
            simp only [andThen]
            rw [arm_zip hnames vs (fields_deserialize_length ms fields hf [] c c' vs hd)]
    · intro h v hv
      simp only [Code.impl, Definition.code, hzn h]
      exact himg (hzn h) v hv
    · intro h bs
      simp only [Code.impl, Definition.code, hzn h]
      exact hload (hzn h) bs
    · intro h
      simp only [Code.impl, Definition.code, hzn h]
      exact hmem (hzn h)
  | union vs =>
    simp only [Definition.message, Option.map_eq_some_iff] at hm
    obtain ⟨variants, hf, rfl⟩ := hm
    have hnames : (vs.map (·.1)).Nodup := hn
    have hcount : variants.tagBits = arrayLengthBits vs.length := by unfold Variants.tagBits; rw [variantsOf_count vs variants hf]
    have hshape : ((vs.map fun v => (v.1, rustTy v.2.1 v.2.2)).map (·.1)) = vs.map (·.1) := by simp
    have hget : ∀ (i : Nat) (x : String × Kind × Arity), vs[i]? = some x →
        (vs.map fun v => (v.1, rustTy v.2.1 v.2.2))[i]? = some (x.1, rustTy x.2.1 x.2.2) := by
      intro i x h
      simp [h]
    have hz : ¬(Message.union extent request variants).nestedZeroCopy = true := by simp [Message.nestedZeroCopy]
    refine ⟨rfl, ?_, ?_, ?_, fun h => absurd h hz, fun h => absurd h hz, fun h => absurd h hz⟩
    · intro v hv
      cases v <;> simp only [Message.has, Bool.false_eq_true] at hv
      rename_i i v
      obtain ⟨name, k, a, s, h1, h2, h3, h4, h5⟩ := variantsOf_get vs variants hf i v hv
      simp only [Code.impl, Definition.code, Message.sizeBits, Val.choice]
      split
      next => simp [SizeBlock.eval, sumTerms, Term.eval]
      next =>
        simp only [SizeBlock.eval, hget i _ h1]
        rw [arm_get (i := i) (x := sizeTerms .inner s a) (by simpa [variantTerms, Function.comp_def] using hnames)
          (by simp [variantTerms, h1, h2])]
        simp only []
        rw [sizeTerms_eval he .inner k a s h2 (variantScope (rustTy k a) v) v rfl h3, h4, hcount]
    · intro v c hv
      cases v <;> simp only [Message.has, Bool.false_eq_true] at hv
      rename_i i v
      obtain ⟨name, k, a, s, h1, h2, h3, h4, h5⟩ := variantsOf_get vs variants hf i v hv
      simp only [Code.impl, Definition.code, Block.run, hget i _ h1, Message.serialize]
      rw [arm_get (i := i) (by rw [variantArms_names]; exact hnames) (variantArms_get _ vs 0 i h1)]
      simp only [runAll, Nat.zero_add]
      rw [callWrite_get env _ true _ _ _ (BitVec.ofNat 64 i) c rfl, hcount]
      simp only [if_true]
      cases writeUIntAligned (arrayLengthBits vs.length) (BitVec.ofNat 64 i) c with
      | none => rfl
      | some c =>
        simp only []
        rw [writeStmts_run he _ true .inner k a s h2 (variantScope (rustTy k a) v) v rfl h3 c, h5]
    · intro c
      simp only [Code.impl, Definition.code, Message.deserialize, Reading.run, hcount]
      cases readUIntAligned (arrayLengthBits vs.length) c with
      | none => rfl
      | some r =>
        obtain ⟨tag, c'⟩ := r
        exact tagArms_run he _ (by rw [hshape]; exact hnames) vs variants hf 0 (fun i x h => by rw [Nat.zero_add]; exact hget i x h) tag c'

end Verif.Shipped
