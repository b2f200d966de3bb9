import Verif.Pnp.CrcProps
import Verif.Tool.CrcModel

/-!
C110: a checksum that was written into an image can be checked.
-/

namespace Verif.Tool

open Verif.Pnp Verif.Crc

/-! ### Vocabulary -/

/-- The image with zeros in place of its checksum, which is at `p`. -/
def zeroed (p : Nat) (image : List Byte) : List Byte := image.mapIdx fun i b => if p ≤ i ∧ i < p + 8 then 0#8 else b

/-- What the checksum is of: the image with zeros in place of the checksum, and with zeros after it up to a multiple of eight bytes. -/
def covered (p : Nat) (image : List Byte) : List Byte := zeroed p image ++ List.replicate ((8 - image.length % 8) % 8) 0#8

/-- The checksum at `p` is correct, and the byte at `q` says that there is one. -/
def Correct (image : List Byte) (p q : Nat) : Prop := getCrc image p q = some (crc64we (covered p image))

/-- The first symbol with this name is at the place `n` of the file: as far from the start of its section in the file as it is in memory. -/
def Placed (o : ObjFile) (name : String) (n : Nat) : Prop :=
  ∃ before symbol after i s start size, o.symbols = before ++ symbol :: after ∧ (∀ x ∈ before, x.name ≠ some name) ∧ symbol.name = some name ∧ symbol.sectionIndex = some i ∧
    o.sectionAt i = some s ∧ s.fileRange = some (start, size) ∧ s.address.toNat ≤ symbol.address.toNat ∧ n = start.toNat + (symbol.address.toNat - s.address.toNat) ∧ n < 2 ^ 64

/-! ### Lemmas -/

theorem findOffset_placed {o : ObjFile} {name : String} {n : Nat} (checks : Bool) (h : Placed o name n) : findOffset checks o name = .ok (BitVec.ofNat 64 n) := by
  obtain ⟨before, symbol, after, i, s, start, size, h1, h2, h3, h4, h5, h6, h7, h8, h9⟩ := h
  have hf : o.symbols.find? (fun s => s.name = some name) = some symbol := by
    rw [h1, List.find?_append, List.find?_eq_none.2 (fun x hx => by simpa using h2 x hx)]
    simp [h3]
  have hsub : (symbol.address - s.address).toNat = symbol.address.toNat - s.address.toNat := BitVec.toNat_sub_of_le h7
  have hres : start + (symbol.address - s.address) = BitVec.ofNat 64 n := by
    apply BitVec.eq_of_toNat_eq
    rw [BitVec.toNat_add, hsub, BitVec.toNat_ofNat, h8]
  have hg : (checks && (decide (symbol.address.toNat < s.address.toNat) || decide (2 ^ 64 ≤ start.toNat + (symbol.address - s.address).toNat))) = false := by
    rw [hsub]
    have e1 : decide (symbol.address.toNat < s.address.toNat) = false := decide_eq_false (by omega)
    have e2 : decide (2 ^ 64 ≤ start.toNat + (symbol.address.toNat - s.address.toNat)) = false := decide_eq_false (by omega)
    rw [e1, e2]
    simp
  simp only [findOffset, hf, h4, h5, h6, hg, hres, Bool.false_eq_true, if_false]

theorem findOffset_ok {o : ObjFile} {name : String} {off : BitVec 64} (h : findOffset true o name = .ok off) : Placed o name off.toNat := by
  unfold findOffset at h
  split at h
  · cases h
  · rename_i symbol hf
    split at h
    · cases h
    · rename_i i hi
      split at h
      · cases h
      · rename_i s hs
        split at h
        · cases h
        · rename_i start size hr
          split at h
          · cases h
          · rename_i hg
            simp only [Bool.true_and, Bool.or_eq_true, decide_eq_true_eq, not_or, Nat.not_lt, Nat.not_le] at hg
            cases h
            obtain ⟨hname, before, after, he, hb⟩ := List.find?_eq_some_iff_append.1 hf
            have hsub : (symbol.address - s.address).toNat = symbol.address.toNat - s.address.toNat := BitVec.toNat_sub_of_le hg.1
            refine ⟨before, symbol, after, i, s, start, size, he, fun x hx => by simpa using hb x hx, by simpa using hname, hi, hs, hr, hg.1, ?_, BitVec.isLt _⟩
            rw [BitVec.toNat_add, Nat.mod_eq_of_lt (by omega), hsub]

theorem overwrite_length {b b' : List Byte} {off : Nat} {x : List Byte} (h : overwrite b off x = some b') : b'.length = b.length := by
  unfold overwrite at h
  split at h
  · cases h
    simp
    omega
  · cases h

theorem overwrite_get {b b' : List Byte} {off : Nat} {x : List Byte} (h : overwrite b off x = some b') (i : Nat) :
    b'[i]? = if off ≤ i ∧ i < off + x.length then x[i - off]? else b[i]? := by
  unfold overwrite at h
  split at h
  · rename_i hl
    cases h
    have ht : (List.take off b).length = off := by simp; omega
    by_cases h1 : i < off
    · rw [if_neg (by omega), List.append_assoc, List.getElem?_append_left (by omega), List.getElem?_take_of_lt h1]
    · by_cases h2 : i < off + x.length
      · rw [if_pos (by omega), List.append_assoc, List.getElem?_append_right (by omega), ht, List.getElem?_append_left (by omega)]
      · rw [if_neg (by omega), List.append_assoc, List.getElem?_append_right (by omega), ht, List.getElem?_append_right (by omega), List.getElem?_drop]
        congr 1
        omega
  · cases h

theorem overwrite_some {b : List Byte} {off : Nat} {x : List Byte} (h : off + x.length ≤ b.length) : ∃ b', overwrite b off x = some b' := by
  unfold overwrite
  rw [if_pos h]
  exact ⟨_, rfl⟩

theorem zeroed_get (p : Nat) (image : List Byte) (i : Nat) : (zeroed p image)[i]? = if p ≤ i ∧ i < p + 8 then image[i]?.map fun _ => 0#8 else image[i]? := by
  unfold zeroed
  rw [List.getElem?_mapIdx]
  split
  · rfl
  · cases image[i]? <;> rfl

theorem zeroed_length (p : Nat) (image : List Byte) : (zeroed p image).length = image.length := by simp [zeroed]

theorem padTo8_zeroed (p : Nat) (image : List Byte) : padTo8 (zeroed p image) = covered p image := by
  unfold padTo8 covered
  rw [zeroed_length]
  split
  · rename_i h
    rw [h]
    simp
  · rename_i h
    have : 8 - image.length % 8 < 8 := by omega
    rw [Nat.mod_eq_of_lt this]

theorem u64_roundtrip (x : BitVec 64) : u64OfBytes (u64Bytes x) = x := by
  unfold u64OfBytes u64Bytes
  rw [leNat_leBytes]
  apply BitVec.eq_of_toNat_eq
  rw [BitVec.toNat_ofNat]
  have := x.isLt
  omega

/-- What is written. -/
theorem addCrc_ok {parse : List Byte → Option ObjFile} {checks : Bool} {binary : List Byte} {o : ObjFile} (hparse : parse binary = some o) {p q : Nat}
    (hp : Placed o "CANADENSIS_CRC" p) (hq : Placed o "CANADENSIS_CRC_VALID" q) (hpl : p + 8 ≤ binary.length) (hql : q < binary.length) (hd : q < p ∨ p + 8 ≤ q) :
    ∃ image, addCrc parse checks binary = .ok image ∧ image.length = binary.length ∧ image[q]? = some 1#8 ∧ (image.drop p).take 8 = u64Bytes (crc64we (covered p image)) ∧
      ∀ i, i ≠ q → i < p ∨ p + 8 ≤ i → image[i]? = binary[i]? := by
  have hp64 : p < 2 ^ 64 := by obtain ⟨-, -, -, -, -, -, -, -, -, -, -, -, -, -, -, h⟩ := hp; exact h
  have hq64 : q < 2 ^ 64 := by obtain ⟨-, -, -, -, -, -, -, -, -, -, -, -, -, -, -, h⟩ := hq; exact h
  have ep : (BitVec.ofNat 64 p).toNat = p := by rw [BitVec.toNat_ofNat, Nat.mod_eq_of_lt hp64]
  have eq : (BitVec.ofNat 64 q).toNat = q := by rw [BitVec.toNat_ofNat, Nat.mod_eq_of_lt hq64]
  obtain ⟨cleared, h1⟩ := overwrite_some (b := binary) (off := p) (x := List.replicate 8 0#8) (by simpa using hpl)
  have l1 := overwrite_length h1
  obtain ⟨marked, h2⟩ := overwrite_some (b := cleared) (off := q) (x := [1#8]) (by simp only [List.length_cons, List.length_nil]; omega)
  have l2 := overwrite_length h2
  have lu : (u64Bytes (fileCrc marked)).length = 8 := by simp [u64Bytes]
  obtain ⟨image, h3⟩ := overwrite_some (b := marked) (off := p) (x := u64Bytes (fileCrc marked)) (by rw [lu]; omega)
  have l3 := overwrite_length h3
  have g1 := overwrite_get h1
  have g2 := overwrite_get h2
  have g3 := overwrite_get h3
  rw [lu] at g3
  simp only [List.length_replicate, List.length_cons, List.length_nil] at g1 g2
  have hz : zeroed p image = marked := by
    apply List.ext_getElem?
    intro i
    rw [zeroed_get]
    by_cases hi : p ≤ i ∧ i < p + 8
    · rw [if_pos hi, g2 i, if_neg (by omega), g1 i, if_pos hi, List.getElem?_replicate, if_pos (by omega), List.getElem?_eq_getElem (by omega)]
      rfl
    · rw [if_neg hi, g3 i, if_neg hi]
  refine ⟨image, ?_, by omega, ?_, ?_, fun i hi hi' => ?_⟩
  · simp only [addCrc, findOffsets, hparse, findOffset_placed checks hp, findOffset_placed checks hq, Res.bind, ep, eq, h1, h2, h3]
  · rw [g3 q, if_neg (by omega), g2 q, if_pos (by omega)]
    simp
  · rw [← padTo8_zeroed, hz]
    apply List.ext_getElem?
    intro i
    by_cases hi : i < 8
    · rw [List.getElem?_take_of_lt hi, List.getElem?_drop, g3, if_pos (by omega)]
      rw [show p + i - p = i from by omega]
      rfl
    · rw [List.getElem?_eq_none (by simp; omega), List.getElem?_eq_none (by simp [u64Bytes]; omega)]
  · rw [g3 i, if_neg (by omega), g2 i, if_neg (by omega), g1 i, if_neg (by omega)]

/-! ### C110 -/

/-- **C110.** If both variables are in the file, and do not overlap, the program writes an image in which the program that is in it finds the checksum of the image. Nothing but the nine bytes of the
variables changes. -/
theorem C110_correct {parse : List Byte → Option ObjFile} {checks : Bool} {binary : List Byte} {o : ObjFile} (hparse : parse binary = some o) {p q : Nat}
    (hp : Placed o "CANADENSIS_CRC" p) (hq : Placed o "CANADENSIS_CRC_VALID" q) (hpl : p + 8 ≤ binary.length) (hql : q < binary.length) (hd : q < p ∨ p + 8 ≤ q) :
    ∃ image, addCrc parse checks binary = .ok image ∧ Correct image p q ∧ image.length = binary.length ∧ ∀ i, i ≠ q → i < p ∨ p + 8 ≤ i → image[i]? = binary[i]? := by
  obtain ⟨image, h1, h2, h3, h4, h5⟩ := addCrc_ok (checks := checks) hparse hp hq hpl hql hd
  refine ⟨image, h1, ?_, h2, h5⟩
  rw [Correct, getCrc, if_pos h3, h4, u64_roundtrip]

/-- **C110.** A program with overflow checks writes an image only if both variables are in the file. -/
theorem C110_only_if {parse : List Byte → Option ObjFile} {binary image : List Byte} (h : addCrc parse true binary = .ok image) :
    ∃ o p q, parse binary = some o ∧ Placed o "CANADENSIS_CRC" p ∧ Placed o "CANADENSIS_CRC_VALID" q ∧ p + 8 ≤ binary.length ∧ q < binary.length := by
  unfold addCrc findOffsets at h
  cases hparse : parse binary with
  | none => rw [hparse] at h; simp [Res.bind] at h
  | some o =>
    simp only [hparse] at h
    cases h1 : findOffset true o "CANADENSIS_CRC" with
    | err e => rw [h1] at h; simp [Res.bind] at h
    | panic => rw [h1] at h; simp [Res.bind] at h
    | ok a =>
      cases h2 : findOffset true o "CANADENSIS_CRC_VALID" with
      | err e => rw [h1, h2] at h; simp [Res.bind] at h
      | panic => rw [h1, h2] at h; simp [Res.bind] at h
      | ok b =>
        rw [h1, h2] at h
        simp only [Res.bind] at h
        split at h
        · cases h
        · rename_i cleared hc
          have l1 := overwrite_length hc
          split at h
          · cases h
          · rename_i marked hm
            refine ⟨o, a.toNat, b.toNat, rfl, findOffset_ok h1, findOffset_ok h2, ?_, ?_⟩
            · unfold overwrite at hc
              split at hc
              · simpa using ‹_›
              · cases hc
            · unfold overwrite at hm
              split at hm
              · rename_i hl
                simp only [List.length_cons, List.length_nil] at hl
                omega
              · cases hm

/-- **C110.** Writing the checksum again changes nothing. -/
theorem C110_twice {parse : List Byte → Option ObjFile} {checks : Bool} {binary : List Byte} {o : ObjFile} (hparse : parse binary = some o) {p q : Nat}
    (hp : Placed o "CANADENSIS_CRC" p) (hq : Placed o "CANADENSIS_CRC_VALID" q) (hpl : p + 8 ≤ binary.length) (hql : q < binary.length) (hd : q < p ∨ p + 8 ≤ q)
    {image : List Byte} (h : addCrc parse checks binary = .ok image) (hsame : parse image = parse binary) : addCrc parse checks image = .ok image := by
  obtain ⟨image', h1, h2, h3, h4, h5⟩ := addCrc_ok (checks := checks) hparse hp hq hpl hql hd
  rw [h] at h1
  cases h1
  obtain ⟨again, g1, g2, g3, g4, g5⟩ := addCrc_ok (checks := checks) (hsame.trans hparse) hp hq (by omega) (by omega) hd
  rw [g1]
  congr 1
  have hz : zeroed p again = zeroed p image := by
    apply List.ext_getElem?
    intro i
    rw [zeroed_get, zeroed_get]
    by_cases hi : p ≤ i ∧ i < p + 8
    · rw [if_pos hi, if_pos hi, List.getElem?_eq_getElem (by omega), List.getElem?_eq_getElem (by omega)]
      rfl
    · rw [if_neg hi, if_neg hi]
      by_cases hiq : i = q
      · rw [hiq, g3, h3]
      · exact g5 i hiq (by omega)
  have hc : (again.drop p).take 8 = (image.drop p).take 8 := by
    rw [g4, h4]
    simp only [covered, hz, g2]
  apply List.ext_getElem?
  intro i
  by_cases hi : p ≤ i ∧ i < p + 8
  · have := congrArg (·[i - p]?) hc
    simp only [List.getElem?_take_of_lt (show i - p < 8 by omega), List.getElem?_drop, show p + (i - p) = i from by omega] at this
    exact this
  · have := congrArg (·[i]?) hz
    simp only [zeroed_get, if_neg hi] at this
    exact this

theorem bitsMsb_append (a b : List Byte) : bitsMsb (a ++ b) = bitsMsb a ++ bitsMsb b := by simp [bitsMsb]

/-- CRC-64/WE detects short bursts. -/
theorem crc64we_burst {m m' : List Byte} (hlen : m.length = m'.length) (hne : m ≠ m') (hw : DifferInWindow 64 (bitsMsb m) (bitsMsb m')) : crc64we m ≠ crc64we m' := by
  obtain ⟨i, hi⟩ := hw
  unfold crc64we
  rw [digests64_eq, digests64_eq]
  intro h
  have := congrArg (· ^^^ BitVec.allOnes 64) h
  simp only [BitVec.xor_assoc, BitVec.xor_self, BitVec.xor_zero] at this
  exact gfeed_burst (by decide) (by rw [bitsMsb_length, bitsMsb_length, hlen]) (fun h => hne (bitsMsb_inj _ _ h)) hi _ this

/-- **C110.** If an image with a correct checksum is changed only within 64 consecutive bits, and its checksum is not changed, or if only its checksum is changed, the checksum is no longer
correct. -/
theorem C110_detects {image image' : List Byte} {p q : Nat} (hc : Correct image p q) (hlen : image'.length = image.length) (hne : image' ≠ image)
    (h : ((image'.drop p).take 8 = (image.drop p).take 8 ∧ DifferInWindow 64 (bitsMsb (covered p image')) (bitsMsb (covered p image))) ∨ covered p image' = covered p image) :
    ¬ Correct image' p q := by
  intro hc'
  unfold Correct getCrc at hc hc'
  split at hc
  · split at hc'
    · simp only [Option.some.injEq] at hc hc'
      have hfield : zeroed p image' = zeroed p image → (image'.drop p).take 8 = (image.drop p).take 8 → False := by
        intro hz hf
        apply hne
        apply List.ext_getElem?
        intro i
        by_cases hi : p ≤ i ∧ i < p + 8
        · have := congrArg (·[i - p]?) hf
          simp only [List.getElem?_take_of_lt (show i - p < 8 by omega), List.getElem?_drop, show p + (i - p) = i from by omega] at this
          exact this
        · have := congrArg (·[i]?) hz
          simp only [zeroed_get, if_neg hi] at this
          exact this
      have hcov : covered p image' = covered p image → zeroed p image' = zeroed p image := by
        intro h
        unfold covered at h
        exact (List.append_inj h (by simp [zeroed_length, hlen])).1
      rcases h with ⟨h1, h2⟩ | h
      · rw [h1, hc] at hc'
        exact crc64we_burst (by simp [covered, zeroed_length, hlen]) (fun e => hfield (hcov e) h1) h2 hc'.symm
      · rw [h, ← hc] at hc'
        apply hfield (hcov h)
        have ht : ∀ l : List Byte, l.length = image.length → ((l.drop p).take 8).length = ((image.drop p).take 8).length := by
          intro l hl
          simp [hl]
        have e := congrArg BitVec.toNat hc'
        unfold u64OfBytes at e
        have lt : ∀ l : List Byte, leNat ((l.drop p).take 8) < 2 ^ 64 := by
          intro l
          refine (leNat_lt _).trans_le ?_
          have : ((l.drop p).take 8).length ≤ 8 := by simp
          calc 256 ^ ((l.drop p).take 8).length ≤ 256 ^ 8 := Nat.pow_le_pow_right (by omega) this
            _ = 2 ^ 64 := by norm_num
        rw [BitVec.toNat_ofNat, BitVec.toNat_ofNat, Nat.mod_eq_of_lt (lt _), Nat.mod_eq_of_lt (lt _)] at e
        rw [← leBytes_leNat ((image'.drop p).take 8), ← leBytes_leNat ((image.drop p).take 8), e, ht _ hlen]
    · cases hc'
  · cases hc

/-- **C110.** At all times the file is there with its old or with its new content, whatever fails and whenever the program is stopped; it has the new one at the end if and only if the program succeeds. No
file changes but this one and the one with the same name and the extension `tmp`. This holds for files with other extensions than `tmp`. -/
theorem C110_replaces {parse : List Byte → Option ObjFile} {checks : Bool} (env : FileEnv) {files : Files} {path : Path} (hext : path.ext ≠ some "tmp") {binary : List Byte} (hfile : files path = some binary) :
    (∀ state ∈ (runTool parse checks env files path).2,
      (state path = some binary ∨ ∃ image, addCrc parse checks binary = .ok image ∧ state path = some image) ∧ ∀ other, other ≠ path → other ≠ path.withExtension "tmp" → state other = files other) ∧
    ∃ last, (runTool parse checks env files path).2.getLast? = some last ∧
      (((runTool parse checks env files path).1 = .ok () ∧ ∃ image, addCrc parse checks binary = .ok image ∧ last path = some image) ∨
       ((runTool parse checks env files path).1 ≠ .ok () ∧ last path = some binary)) := by
  have hne : path ≠ path.withExtension "tmp" := by
    intro h
    exact hext (congrArg Path.ext h)
  unfold runTool
  simp only [hfile]
  cases ha : addCrc parse checks binary with
  | err e => simp [hfile]
  | panic => simp [hfile]
  | ok image =>
    simp only []
    cases env.writeFails with
    | some part =>
      cases part with
      | none => simp [hfile]
      | some part =>
        simp only [List.mem_cons, List.not_mem_nil, or_false, forall_eq_or_imp, forall_eq, if_neg hne, hfile, true_or, true_and, implies_true, and_true, List.getLast?_cons_cons,
          List.getLast?_singleton, Option.some.injEq, exists_eq_left', reduceCtorEq, ne_eq, not_false_eq_true, false_and, or_true]
        exact ⟨fun o _ h => if_neg h, fun o _ h => if_neg h⟩
    | none =>
      simp only []
      split
      · simp only [List.mem_cons, List.not_mem_nil, or_false, forall_eq_or_imp, forall_eq, if_neg hne, hfile, true_or, true_and, implies_true, and_true, List.getLast?_cons_cons,
          List.getLast?_singleton, Option.some.injEq, exists_eq_left', reduceCtorEq, ne_eq, not_false_eq_true, false_and, or_true]
        exact ⟨fun o _ h => if_neg h, fun o _ h => if_neg h⟩
      · rw [if_neg (Ne.symm hne)]
        simp only [List.cons_append, List.nil_append, List.mem_cons, List.not_mem_nil, or_false, forall_eq_or_imp, forall_eq, if_neg hne, hfile, true_or, true_and, implies_true, and_true,
          List.getLast?_cons_cons, List.getLast?_singleton, Option.some.injEq, exists_eq_left', if_true, Res.ok.injEq, ne_eq, not_true_eq_false, false_and]
        refine ⟨fun o _ h => if_neg h, fun o _ h => if_neg h, ?_⟩
        exact ⟨.inr trivial, fun o h1 h2 => by rw [if_neg h1, if_neg h2]⟩

/-! ### Cases -/

/-- A file of 21 bytes: a section for address 0x1000 begins at byte 4; the checksum is at its beginning, and the other variable after it. -/
def anImage : List Byte := [0x7f, 0x45, 0x4c, 0x46, 9, 9, 9, 9, 9, 9, 9, 9, 0, 1, 2, 3, 4, 5, 6, 7, 8]

/-- Its symbols. -/
def anObject : ObjFile where
  symbols := [⟨some "main", 0x2000, some 0⟩, ⟨some "CANADENSIS_CRC_VALID", 0x1008, some 1⟩, ⟨none, 0, none⟩, ⟨some "CANADENSIS_CRC", 0x1000, some 1⟩]
  sectionAt i := if i = 1 then some ⟨0x1000, some (4, 17)⟩ else none

example : Placed anObject "CANADENSIS_CRC" 4 ∧ Placed anObject "CANADENSIS_CRC_VALID" 12 :=
  ⟨⟨[⟨some "main", 0x2000, some 0⟩, ⟨some "CANADENSIS_CRC_VALID", 0x1008, some 1⟩, ⟨none, 0, none⟩], ⟨some "CANADENSIS_CRC", 0x1000, some 1⟩, [], 1, ⟨0x1000, some (4, 17)⟩, 4, 17, rfl,
      by simp, rfl, rfl, rfl, rfl, by decide, by decide, by decide⟩,
   ⟨[⟨some "main", 0x2000, some 0⟩], ⟨some "CANADENSIS_CRC_VALID", 0x1008, some 1⟩, [⟨none, 0, none⟩, ⟨some "CANADENSIS_CRC", 0x1000, some 1⟩], 1, ⟨0x1000, some (4, 17)⟩, 4, 17, rfl,
      by simp, rfl, rfl, rfl, rfl, by decide, by decide, by decide⟩⟩

example : addCrc (fun _ => some anObject) true anImage =
    .ok [0x7f, 0x45, 0x4c, 0x46, 0x26, 0xd1, 0x78, 0x4c, 0x64, 0x73, 0xaa, 0x74, 1, 1, 2, 3, 4, 5, 6, 7, 8] := by decide +kernel

-- A changed image: the last byte.
example : DifferInWindow 64 (bitsMsb (covered 4 (anImage.set 20 9))) (bitsMsb (covered 4 anImage)) ∧ ((anImage.set 20 9).drop 4).take 8 = (anImage.drop 4).take 8 := by
  refine ⟨⟨128, fun k hk => ?_⟩, by decide⟩
  rcases Nat.lt_or_ge k 192 with h | h
  · have : ∀ k : Fin 192, (k.val < 128 ∨ 128 + 64 ≤ k.val) → (bitsMsb (covered 4 (anImage.set 20 9)))[k.val]? = (bitsMsb (covered 4 anImage))[k.val]? := by decide +kernel
    exact this ⟨k, h⟩ hk
  · have h1 : (bitsMsb (covered 4 (anImage.set 20 9))).length = 192 := by decide +kernel
    have h2 : (bitsMsb (covered 4 anImage)).length = 192 := by decide +kernel
    rw [List.getElem?_eq_none (by omega), List.getElem?_eq_none (by omega)]

/-- A directory with this image and another file. -/
def someFiles : Files := fun p => if p = ⟨"target", "node", some "elf"⟩ then some anImage else if p = ⟨"target", "node", some "tmp"⟩ then some [1, 2] else none

example : (runTool (fun _ => some anObject) true ⟨none, false⟩ someFiles ⟨"target", "node", some "elf"⟩).1 = .ok () ∧
    (runTool (fun _ => some anObject) true ⟨none, true⟩ someFiles ⟨"target", "node", some "elf"⟩).1 = .err .rename ∧
    (runTool (fun _ => some anObject) true ⟨some (some [0x7f]), false⟩ someFiles ⟨"target", "node", some "elf"⟩).2.length = 3 := by decide +kernel

/-- **C110.** That the file always is there with its old or new content is false for files with the extension `tmp`: such a file is written in place, and is lost if the write fails. -/
theorem C110_tmp_counterexample :
    ∃ (parse : List Byte → Option ObjFile) (env : FileEnv) (files : Files) (path : Path) (binary : List Byte), files path = some binary ∧
      binary.length = 21 ∧ ∃ last, (runTool parse true env files path).2.getLast? = some last ∧ last path = some [0x7f#8] := by
  have h : ((runTool (fun _ => some anObject) true ⟨some (some [0x7f]), false⟩ (fun _ => some anImage) ⟨"", "node", some "tmp"⟩).2.getLast?.map fun last =>
      last ⟨"", "node", some "tmp"⟩) = some (some [0x7f#8]) := by decide +kernel
  obtain ⟨last, h1, h2⟩ := Option.map_eq_some_iff.1 h
  exact ⟨fun _ => some anObject, ⟨some (some [0x7f]), false⟩, fun _ => some anImage, ⟨"", "node", some "tmp"⟩, anImage, rfl, rfl, last, h1, h2⟩

/-- **C110.** That no other file changes is false: one with the extension `tmp` is lost. -/
theorem C110_other_file_counterexample :
    ∃ last, (runTool (fun _ => some anObject) true ⟨none, false⟩ someFiles ⟨"target", "node", some "elf"⟩).2.getLast? = some last ∧
      someFiles ⟨"target", "node", some "tmp"⟩ = some [1, 2] ∧ last ⟨"target", "node", some "tmp"⟩ = none := by
  have h : ((runTool (fun _ => some anObject) true ⟨none, false⟩ someFiles ⟨"target", "node", some "elf"⟩).2.getLast?.map fun last => last ⟨"target", "node", some "tmp"⟩) = some none := by
    decide +kernel
  obtain ⟨last, h1, h2⟩ := Option.map_eq_some_iff.1 h
  exact ⟨last, h1, by decide, h2⟩

/-- **C110.** That every change of an image is detected is false, even if only zeros are added to it: the checksum is the same up to a multiple of eight bytes. -/
theorem C110_length_counterexample : ∃ (image : List Byte) (p q : Nat), Correct image p q ∧ Correct (image ++ [0]) p q := by
  refine ⟨[0x7f, 0x45, 0x4c, 0x46, 0x26, 0xd1, 0x78, 0x4c, 0x64, 0x73, 0xaa, 0x74, 1, 1, 2, 3, 4, 5, 6, 7, 8], 4, 12, ?_, ?_⟩ <;> (unfold Correct; decide +kernel)

end Verif.Tool
