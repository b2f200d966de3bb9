import Verif.Shipped.Table
import Verif.Shipped.Lemmas
import Verif.Shipped.Bounds

/-!
All the shipped types: what they do and what they are documented to be, in the order of the table.
-/

namespace Verif.Shipped

open Verif.Enc Verif.Dsdl

/-- The definitions, each with the ones before it, as the compiler would compile them (canadensis_dsdl_frontend/src/compile.rs L95-170). The list ends before
a definition that refers to one that is not before it. -/
def compiledFrom (types : List Message) : List Definition → List Message
  | [] => types
  | d :: ds =>
    match d.message types with
    | none => types
    | some m => compiledFrom (types ++ [m]) ds

/-- What the Rust types in the file do (canadensis_data_types/src/generated.rs). -/
def impls : List Impl := implsFrom [] (shipped.map (·.code))

/-- What the comments in the file say that the types are (canadensis_data_types/src/generated.rs). -/
def messages : List Message := compiledFrom [] (shipped.map (·.definition))

theorem messages_eq : compiledFrom [] (shipped.map (·.definition)) = messages := by rw [messages]

/-- A check of every type, with the types before it. -/
def checkFrom (p : Entry → List Message → Message → Bool) (types : List Message) : List Entry → Bool
  | [] => true
  | t :: ts =>
    match t.definition.message types with
    | none => false
    | some m => p t types m && checkFrom p (types ++ [m]) ts

/-- The type is what the generator writes for its definition, and the names of its fields are different. -/
def upToDate (t : Entry) (types : List Message) (m : Message) : Bool :=
  decide (t.definition.code types m = t.code) && decide t.definition.body.names.Nodup

theorem compiledFrom_prefix (ds : List Definition) (types : List Message) : ∃ rest, compiledFrom types ds = types ++ rest := by
  induction ds generalizing types with
  | nil => exact ⟨[], by simp [compiledFrom]⟩
  | cons d ds ih =>
    simp only [compiledFrom]
    split
    · exact ⟨[], by simp⟩
    next m _ =>
      obtain ⟨rest, h⟩ := ih (types ++ [m])
      exact ⟨m :: rest, by rw [h]; simp⟩

/-- What a check of the whole table means for the type with number `k`. -/
theorem check_get (p : Entry → List Message → Message → Bool) (ts : List Entry) (types : List Message) (h : checkFrom p types ts = true) (k : Nat) (t : Entry)
    (ht : ts[k]? = some t) :
    ∃ m, (compiledFrom types (ts.map (·.definition)))[types.length + k]? = some m ∧
      p t ((compiledFrom types (ts.map (·.definition))).take (types.length + k)) m = true ∧
      t.definition.message ((compiledFrom types (ts.map (·.definition))).take (types.length + k)) = some m := by
  induction ts generalizing types k with
  | nil => simp at ht
  | cons s ts ih =>
    simp only [checkFrom] at h
    split at h
    · cases h
    next m hm =>
      rw [Bool.and_eq_true] at h
      simp only [List.map_cons, compiledFrom, hm]
      cases k with
      | zero =>
        simp only [List.getElem?_cons_zero, Option.some.injEq] at ht
        subst ht
        obtain ⟨rest, hr⟩ := compiledFrom_prefix (ts.map (·.definition)) (types ++ [m])
        refine ⟨m, ?_, ?_, ?_⟩
        · rw [hr]; simp
        · rw [hr]; simpa using h.1
        · rw [hr]; simpa using hm
      | succ k =>
        simp only [List.getElem?_cons_succ] at ht
        have := ih (types ++ [m]) h.2 k ht
        simp only [List.length_append, List.length_cons, List.length_nil] at this
        rw [show types.length + (k + 1) = types.length + (0 + 1) + k by omega]
        exact this

theorem implements_from (ts : List Entry) (env : List Impl) (types : List Message) (he : Env env types) (h : checkFrom upToDate types ts = true) :
    Env (implsFrom env (ts.map (·.code))) (compiledFrom types (ts.map (·.definition))) := by
  induction ts generalizing env types with
  | nil => exact he
  | cons t ts ih =>
    simp only [checkFrom] at h
    split at h
    · cases h
    next m hm =>
      simp only [Bool.and_eq_true, upToDate, decide_eq_true_eq] at h
      simp only [List.map_cons, implsFrom, compiledFrom, hm]
      apply ih _ _ _ h.2
      have hi := generated_implements he t.definition m hm h.1.2
      rw [h.1.1] at hi
      exact List.rel_append he (.cons hi .nil)

/-- Every type in the file is what the generator writes for the definition in the comments. -/
theorem all_upToDate : checkFrom upToDate [] shipped = true := by decide +kernel

/-- Every type in the file does what the model of the generated code says for its definition. -/
theorem all_implement : Env impls messages := by
  rw [← messages_eq, impls]
  exact implements_from shipped [] [] .nil all_upToDate

/-- The type and the definition with number `k`. -/
theorem shipped_get {k : Nat} {t : Entry} (ht : shipped[k]? = some t) :
    ∃ i m, impls[k]? = some i ∧ messages[k]? = some m ∧ Implements i m := by
  obtain ⟨m, hm, -⟩ := check_get _ shipped [] all_upToDate k t ht
  rw [List.length_nil, Nat.zero_add, messages_eq] at hm
  obtain ⟨i, hi, h⟩ := all_implement.get hm
  exact ⟨i, m, hi, hm, h⟩

/-- A check of the whole table. -/
theorem shipped_check {p : Entry → List Message → Message → Bool} (h : checkFrom p [] shipped = true) {k : Nat} {t : Entry} {m : Message}
    (ht : shipped[k]? = some t) (hm : messages[k]? = some m) : p t (messages.take k) m = true := by
  obtain ⟨m', hm', hp, -⟩ := check_get p shipped [] h k t ht
  rw [List.length_nil, Nat.zero_add, messages_eq] at hm' hp
  rw [Option.some.inj (hm.symm.trans hm')]
  exact hp

/-- The type with the path. -/
def named (path : String) : Option Impl := impls[shipped.findIdx fun t => t.path = path]?

end Verif.Shipped
