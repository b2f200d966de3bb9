import Verif.Bls.Model
import Mathlib.Data.List.Forall2
/-
What a bit length set expression means, stated without the functions that compute it.
-/
namespace Verif.Bls

open BitLengthSet

/-- `s` is made with the functions of the interface, and `Len s` is the set of lengths it stands for:

* a set of given lengths stands for those lengths;
* padding to `a` rounds every length up: `m` becomes the multiple `n` of `a` with `m ≤ n < m + a`;
* a concatenation has every sum of one length from each part;
* a repetition has every sum of exactly `k` lengths, and a repeated range every sum of at most `k`;
* a union has the lengths of all its parts. -/
inductive Denotes : BitLengthSet → (Nat → Prop) → Prop
  | single (n : Nat) : Denotes (single n) (fun l => l = n)
  | ofLengths {values s} : fromLengths values = some s → Denotes s (fun l => l ∈ values)
  | ofSet {values s} : values.Pairwise (· < ·) → fromLengthSet values = some s → Denotes s (fun l => l ∈ values)
  | pad {s L} (a : Nat) : 0 < a → Denotes s L →
      Denotes (s.padToAlignment a) (fun l => ∃ m, L m ∧ a ∣ l ∧ m ≤ l ∧ l < m + a)
  | repeated {s L} (k : Nat) : Denotes s L →
      Denotes (s.repeatTimes k) (fun l => ∃ ms : List Nat, ms.length = k ∧ (∀ m ∈ ms, L m) ∧ ms.sum = l)
  | ranged {s L} (k : Nat) : Denotes s L →
      Denotes (s.repeatRange k) (fun l => ∃ ms : List Nat, ms.length ≤ k ∧ (∀ m ∈ ms, L m) ∧ ms.sum = l)
  | concat {s L} (parts : List (BitLengthSet × (Nat → Prop))) : Denotes s L → (∀ p ∈ parts, Denotes p.1 p.2) →
      Denotes (s.concatenate (parts.map (·.1)))
        (fun l => ∃ m, L m ∧ ∃ ms, List.Forall₂ (fun n (p : BitLengthSet × (Nat → Prop)) => p.2 n) ms parts ∧ m + ms.sum = l)
  | united {s L} (parts : List (BitLengthSet × (Nat → Prop))) : Denotes s L → (∀ p ∈ parts, Denotes p.1 p.2) →
      Denotes (s.unite (parts.map (·.1))) (fun l => L l ∨ ∃ p ∈ parts, p.2 l)

/-- The expression pads to a multiple of `a` somewhere. -/
inductive PadsTo (a : Nat) : Operator → Prop
  | here (c : Operator) : PadsTo a (.padding c a)
  | padding {c b} : PadsTo a c → PadsTo a (.padding c b)
  | repeated {c k} : PadsTo a c → PadsTo a (.repeat c k)
  | ranged {c k} : PadsTo a c → PadsTo a (.rangeRepeat c k)
  | concat {c cs} : c ∈ cs → PadsTo a c → PadsTo a (.concatenate cs)
  | united {c cs} : c ∈ cs → PadsTo a c → PadsTo a (.union cs)

end Verif.Bls
