import Verif.Front.Solve

/-!
C84: compiling a set of DSDL files gives each type once, as its own file describes it, whatever the order of the files and of the references.
-/

namespace Verif.Front

/-- **C84** (the types that compiling gives): if compiling files with different names succeeds, there is exactly one type for each file, and each type is what its
own file compiles to when other names stand for the types before it. So no type refers to itself, directly or through others. -/
theorem C84_order (x : Externals) (files : List (TypeKey × File)) (types : List (TypeKey × Compiled)) (hd : DifferentNames files)
    (h : compile x files = .ok types) : (types.map fun e => e.1.folded).Perm (files.map fun e => e.1.folded) ∧ InOrder x files types := by
  unfold compile at h
  cases hp : Persistent.compileAll x files.length ⟨files, []⟩ with
  | error => rw [hp] at h; cases h
  | panic => rw [hp] at h; cases h
  | ok p =>
    rw [hp] at h
    cases h
    have hi : Inv x files ⟨files, []⟩ := ⟨List.nodup_nil, InOrder.nil x files, (different_iff files).1 hd, fun _ he => he⟩
    obtain ⟨h1, h2, h3⟩ := sound_all x files files.length _ _ hi hp
    refine ⟨?_, h1.order⟩
    have := h2.keys
    unfold Persistent.keys at this
    rw [h3] at this
    simpa using this

/-- **C84** (one meaning for each name): each of the types is also what its file compiles to when names stand for all the types in the result. -/
theorem C84_closed (x : Externals) (files : List (TypeKey × File)) (types : List (TypeKey × Compiled)) (hd : DifferentNames files)
    (h : compile x files = .ok types) (key : TypeKey) (c : Compiled) (hm : (key, c) ∈ types) :
    ∃ name file, (name, file) ∈ files ∧ SameName name key ∧ Compiles x types key file c := by
  obtain ⟨hperm, ho⟩ := C84_order x files types hd h
  obtain ⟨before, after, hs⟩ := List.append_of_mem hm
  obtain ⟨name, file, hf, hn, hc⟩ := ho before key c after hs
  have hnd : (types.map fun e => e.1.folded).Nodup := hperm.nodup_iff.2 ((different_iff files).1 hd)
  exact ⟨name, file, hf, hn, compiles_mono hc ⟨_, hs.symm⟩ hnd⟩

/-- **C84** (success): if the types of the files can be arranged so that each is what its file compiles to with the types before it, compiling succeeds
and gives these types. It does not matter in which order the files come, or which type refers to which. -/
theorem C84_complete_partial (x : Externals) (files : List (TypeKey × File)) (types : List (TypeKey × Compiled)) (hd : DifferentNames files)
    (hn : (types.map Prod.fst).Perm (files.map Prod.fst)) (ho : InOrder x files types) : ∃ out, compile x files = .ok out ∧ out.Perm types := by
  have ha : Arranged x files types := ⟨(different_iff files).1 hd, hn, ho⟩
  have hb : Base files types ⟨files, []⟩ := ⟨fun e he => by simp at he, fun _ he => he, by simpa [Persistent.keys] using (different_iff files).1 hd⟩
  obtain ⟨p, hp, hperm⟩ := complete_all ha files.length ⟨files, []⟩ hb (by simpa [Persistent.keys] using ha.folded.symm) (Nat.le_refl _)
  exact ⟨p.done, by unfold compile; rw [hp]; rfl, hperm⟩

/-- **C84** (the order of the files): the same files in another order give the same types, if all names are written as in the names of the files. -/
theorem C84_any_order_partial (x : Externals) (files files' : List (TypeKey × File)) (types : List (TypeKey × Compiled)) (hd : DifferentNames files)
    (hp : files'.Perm files) (h : compile x files = .ok types) (hn : (types.map Prod.fst).Perm (files.map Prod.fst)) :
    ∃ out, compile x files' = .ok out ∧ out.Perm types := by
  refine C84_complete_partial x files' types ?_ (hn.trans (hp.map _).symm) ?_
  · rw [different_iff] at hd ⊢
    exact (hp.map _).nodup_iff.2 hd
  · intro before key c after he
    obtain ⟨name, file, hf, hs, hc⟩ := (C84_order x files types hd h).2 before key c after he
    exact ⟨name, file, hp.symm.subset hf, hs, hc⟩

/-- **C84** (the depth of the model's recursion): looking up a type never needs more nested lookups than there are files left, so that the bound in the model
changes nothing. -/
theorem C84_depth (x : Externals) (n m : Nat) (key : TypeKey) (p : Persistent) (hn : p.pending.length ≤ n) (hm : p.pending.length ≤ m) :
    Persistent.typeByKey x n key p = Persistent.typeByKey x m key p := by
  have e : ∀ k, p.pending.length ≤ k → Persistent.typeByKey x p.pending.length key p = Persistent.typeByKey x k key p := by
    intro k hk
    have := (depth_lookup x p.pending.length k hk key (.new []) p (Nat.le_refl _)).1
    simp only [Step.ofLookup] at this
    cases h1 : Persistent.typeByKey x p.pending.length key p <;> cases h2 : Persistent.typeByKey x k key p <;> rw [h1, h2] at this <;>
      simp_all [Outcome.bind]
    exact Prod.ext this.1 this.2
  rw [← e n hn, ← e m hm]

/-! ### Cases -/

/-- Functions of other crates, for the examples: names and characters as they are. -/
def demoX : Externals where
  nfc := id
  power _ _ := none
  sortSets := some
  float16 _ := some 0
  float32 _ := some 0
  float64 _ := some 0
  reserved s := s == "bool"

/-- `ns.Name.1.0`. -/
def demoKey (name : String) : TypeKey := ⟨["ns"], name, 1, 0⟩

/-- A file with a field of another type. -/
def demoFile (other : String) : File := ⟨none, some [.field (.scalar (.versioned (demoKey other))) "x", .directive "sealed" none]⟩

/-- A file with a field that is a byte. -/
def demoLeaf : File := ⟨none, some [.field (.scalar (.prim (.uint 8 .saturated))) "x", .directive "sealed" none]⟩

/-- Three types, where the first refers to the second and the second to the third. -/
def demoFiles : List (TypeKey × File) := [(demoKey "A", demoFile "B"), (demoKey "B", demoFile "C"), (demoKey "C", demoLeaf)]

/-- The names of the types that compiling gives. -/
def names : Outcome (List (TypeKey × Compiled)) → Outcome (List TypeKey)
  | .ok l => .ok (l.map Prod.fst)
  | .error => .error
  | .panic => .panic

-- Three files compile; the types come in the order of the references.
example : DifferentNames demoFiles ∧ names (compile demoX demoFiles) = .ok [demoKey "C", demoKey "B", demoKey "A"] :=
  ⟨(different_iff _).2 (by decide +kernel), by decide +kernel⟩

-- They also do in another order.
example : demoFiles.reverse.Perm demoFiles ∧ names (compile demoX demoFiles.reverse) = .ok [demoKey "C", demoKey "B", demoKey "A"] :=
  ⟨List.reverse_perm _, by decide +kernel⟩

-- Two types that refer to each other do not compile, nor does a type that refers to itself.
example : names (compile demoX [(demoKey "A", demoFile "B"), (demoKey "B", demoFile "A")]) = .error ∧
    names (compile demoX [(demoKey "A", demoFile "A")]) = .error := by decide +kernel

-- A lookup with two files left.
example : (Persistent.mk demoFiles.tail []).pending.length = 2 ∧
    (match Persistent.typeByKey demoX 2 (demoKey "B") ⟨demoFiles.tail, []⟩ with | .ok r => r.2.done.length | _ => 0) = 2 := by decide +kernel

/-- **C84 does not hold for names that differ in case**: the same files compile in one order but not in another. A reference in the wrong case to a file that is not yet
compiled is accepted, one to a file that is compiled is not. -/
theorem C84_counterexample_case : ∃ files files' : List (TypeKey × File), files'.Perm files ∧ DifferentNames files ∧
    names (compile demoX files) = .ok [demoKey "b", demoKey "A"] ∧ names (compile demoX files') = .error :=
  ⟨[(demoKey "A", demoFile "b"), (demoKey "B", demoLeaf)], [(demoKey "B", demoLeaf), (demoKey "A", demoFile "b")], .swap _ _ _,
    (different_iff _).2 (by decide +kernel), by decide +kernel, by decide +kernel⟩

/-- **C84 does not hold for names that differ in case**, also in the order in which the compiler takes the files: a type that is named in the right case is not found
after another file named it in the wrong case. -/
theorem C84_counterexample_right_case :
    names (compile demoX [(demoKey "A", demoFile "c"), (demoKey "B", demoFile "C"), (demoKey "C", demoLeaf)]) = .error ∧
    names (compile demoX [(demoKey "B", demoFile "C"), (demoKey "C", demoLeaf)]) = .ok [demoKey "C", demoKey "B"] := by decide +kernel

end Verif.Front
