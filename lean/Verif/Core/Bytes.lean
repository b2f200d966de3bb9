import Verif.Basic

/-! Little-endian byte strings. -/

namespace Verif

/-- The `n` lowest bytes of a number, least significant first (`to_le_bytes`, `zerocopy` `U16`/`U32`/`U64` with
`LittleEndian`). Modelled on numbers so that one definition covers all widths. -/
def leBytes : Nat → Nat → List Byte
  | 0, _ => []
  | n + 1, v => BitVec.ofNat 8 v :: leBytes n (v / 256)

/-- The number encoded by bytes, least significant first (`from_le_bytes`). -/
def leNat : List Byte → Nat
  | [] => 0
  | b :: bs => b.toNat + 256 * leNat bs

@[simp] theorem leBytes_length (n v : Nat) : (leBytes n v).length = n := by
  induction n generalizing v with
  | zero => rfl
  | succ n ih => simp [leBytes, ih]

theorem leNat_leBytes (n v : Nat) : leNat (leBytes n v) = v % 256 ^ n := by
  induction n generalizing v with
  | zero => simp [leBytes, leNat, Nat.mod_one]
  | succ n ih =>
    simp only [leBytes, leNat, ih, BitVec.toNat_ofNat]
    rw [Nat.pow_succ' (m := 256) (n := n)]
    exact Nat.mod_mul.symm

theorem leNat_lt (bs : List Byte) : leNat bs < 256 ^ bs.length := by
  induction bs with
  | nil => simp [leNat]
  | cons b bs ih =>
    simp only [leNat, List.length_cons, Nat.pow_succ']
    have := b.isLt
    omega

theorem leBytes_leNat (bs : List Byte) : leBytes bs.length (leNat bs) = bs := by
  induction bs with
  | nil => rfl
  | cons b bs ih =>
    have h := b.isLt
    have h1 : (leNat (b :: bs)) / 256 = leNat bs := by simp only [leNat]; omega
    simp only [List.length_cons, leBytes, h1, ih]
    congr 1
    apply BitVec.eq_of_toNat_eq
    simp only [leNat, BitVec.toNat_ofNat]
    omega

end Verif
