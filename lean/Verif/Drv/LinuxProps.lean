import Verif.Drv.LinuxModel

/-!
C108: the Linux driver.
-/

namespace Verif.Drv

open Verif.Can

variable {E : Type}

/-! ### What the statements are about -/

/-- A frame as the socket sees it. -/
def asSock (f : Frame) : SockFrame := ⟨.extended (f.id.setWidth 29), f.data⟩

/-- The frames for which `transmit` returned `Ok` and whose deadlines had not passed. -/
def linuxTaken : List (LinuxOp E) → List (LinuxAnswer E) → List Frame
  | .transmit now _ f :: ops, .transmitted (.ok _) :: as => if Instant.before f.timestamp now then linuxTaken ops as else f :: linuxTaken ops as
  | _ :: ops, _ :: as => linuxTaken ops as
  | _, _ => []

/-- What is worth returning: a frame with an extended ID that is not too long, or an error. -/
inductive SockWorth (E : Type) where
  | frame (id : BitVec 32) (data : List Byte)
  | error (e : E)
deriving DecidableEq, Repr

def SockItem.worth (capacity : Nat) : SockItem E → Option (SockWorth E)
  | .error e => some (.error e)
  | .frame ⟨.extended id, data⟩ => if data.length ≤ capacity then some (.frame (id.setWidth 32) data) else none
  | .frame ⟨.standard _, _⟩ => none

def linuxArrivals : List (LinuxOp E) → List (SockItem E)
  | .arrive x :: ops => x :: linuxArrivals ops
  | _ :: ops => linuxArrivals ops
  | [] => []

def linuxReceived : List (LinuxAnswer E) → List (SockWorth E)
  | .received (.frame f) :: as => .frame f.id f.data :: linuxReceived as
  | .received (.error e) :: as => .error e :: linuxReceived as
  | _ :: as => linuxReceived as
  | [] => []

/-- The IDs have 29 bits, and the socket takes frames of these lengths. -/
def LinuxValid (fits : Nat → Bool) (ops : List (LinuxOp E)) : Prop := ∀ now answer f, .transmit now answer f ∈ ops → f.id.toNat < 2 ^ 29 ∧ fits f.data.length = true

/-! ### Steps -/

theorem linuxTaken_cons (op : LinuxOp E) (a : LinuxAnswer E) (ops : List (LinuxOp E)) (as : List (LinuxAnswer E)) :
    linuxTaken (op :: ops) (a :: as) = linuxTaken [op] [a] ++ linuxTaken ops as := by
  cases op with
  | transmit now answer f =>
    cases a with
    | transmitted r =>
      cases r with
      | ok o => simp only [linuxTaken]; split <;> rfl
      | wouldBlock => rfl
      | other e => rfl
    | received r => rfl
    | nothing => rfl
  | receive now => rfl
  | arrive x => rfl

theorem linuxArrivals_cons (op : LinuxOp E) (ops : List (LinuxOp E)) : linuxArrivals (op :: ops) = linuxArrivals [op] ++ linuxArrivals ops := by cases op <;> rfl

theorem linuxReceived_cons (a : LinuxAnswer E) (as : List (LinuxAnswer E)) : linuxReceived (a :: as) = linuxReceived [a] ++ linuxReceived as := by
  cases a with
  | transmitted r => rfl
  | received r => cases r <;> rfl
  | nothing => rfl

theorem linuxReceive_does (capacity : Nat) (now : Instant) : ∀ xs : List (SockItem E),
    linuxReceived [.received (linuxReceive capacity now xs).2] ++ (linuxReceive capacity now xs).1.filterMap (SockItem.worth capacity) = xs.filterMap (SockItem.worth capacity) ∧
      match (linuxReceive capacity now xs).2 with
      | .frame f => f.timestamp = now ∧ f.loopback = false
      | .wouldBlock => (linuxReceive capacity now xs).1 = []
      | .error _ => True
  | [] => ⟨rfl, rfl⟩
  | .error e :: xs => ⟨rfl, trivial⟩
  | .frame ⟨id, data⟩ :: xs => by
    have ih := linuxReceive_does capacity now xs
    unfold linuxReceive
    by_cases hd : data.length ≤ capacity
    · rw [if_pos hd]
      cases id with
      | standard id =>
        rw [List.filterMap_cons_none rfl]
        exact ih
      | extended id =>
        have : (SockItem.frame (E := E) ⟨.extended id, data⟩).worth capacity = some (.frame (id.setWidth 32) data) := if_pos hd
        rw [List.filterMap_cons_some this]
        exact ⟨rfl, rfl, rfl⟩
    · rw [if_neg hd]
      have : (SockItem.frame (E := E) ⟨id, data⟩).worth capacity = none := by
        cases id with
        | standard id => rfl
        | extended id => exact if_neg hd
      rw [List.filterMap_cons_none this]
      exact ih

theorem linux_step {fits : Nat → Bool} {capacity : Nat} (d : Linux E) {op : LinuxOp E} (hv : ∀ now answer f, op = .transmit now answer f → f.id.toNat < 2 ^ 29 ∧ fits f.data.length = true) :
    ∃ d' a, d.step fits capacity op = some (d', a) ∧ d'.written = d.written ++ (linuxTaken [op] [a]).map asSock ∧
      linuxReceived [a] ++ d'.incoming.filterMap (SockItem.worth capacity) = d.incoming.filterMap (SockItem.worth capacity) ++ (linuxArrivals [op]).filterMap (SockItem.worth capacity) := by
  cases op with
  | transmit now answer f =>
    obtain ⟨h1, h2⟩ := hv now answer f rfl
    simp only [Linux.step, Linux.transmit, h1, h2, if_true]
    cases hb : Instant.before f.timestamp now with
    | true => exact ⟨_, _, rfl, by simp [linuxTaken, hb], by simp [linuxReceived, linuxArrivals]⟩
    | false =>
      cases answer with
      | ok => exact ⟨_, _, rfl, by simp [linuxTaken, hb, asSock], by simp [linuxReceived, linuxArrivals]⟩
      | wouldBlock => exact ⟨_, _, rfl, by simp [linuxTaken], by simp [linuxReceived, linuxArrivals]⟩
      | error e => exact ⟨_, _, rfl, by simp [linuxTaken], by simp [linuxReceived, linuxArrivals]⟩
  | receive now => exact ⟨_, _, rfl, by simp [linuxTaken, Linux.receive], by simpa [Linux.receive, linuxArrivals] using (linuxReceive_does capacity now d.incoming).1⟩
  | arrive x => exact ⟨_, _, rfl, by simp [linuxTaken], by simp [linuxReceived, linuxArrivals]⟩

theorem linux_run {fits : Nat → Bool} {capacity : Nat} : ∀ {ops : List (LinuxOp E)} (d : Linux E), LinuxValid fits ops → ∃ d' as, d.run fits capacity ops = some (d', as) ∧
      d'.written = d.written ++ (linuxTaken ops as).map asSock ∧
      linuxReceived as ++ d'.incoming.filterMap (SockItem.worth capacity) = d.incoming.filterMap (SockItem.worth capacity) ++ (linuxArrivals ops).filterMap (SockItem.worth capacity)
  | [], d, _ => ⟨d, [], rfl, by simp [linuxTaken], by simp [linuxReceived, linuxArrivals]⟩
  | op :: ops, d, hv => by
    obtain ⟨d1, a, h1, h2, h3⟩ := linux_step (capacity := capacity) d (op := op) (fun now answer f h => hv now answer f (h ▸ List.mem_cons_self))
    obtain ⟨d2, as, k1, k2, k3⟩ := linux_run (capacity := capacity) d1 (fun now answer f h => hv now answer f (List.mem_cons_of_mem _ h))
    refine ⟨d2, a :: as, by simp [Linux.run, h1, k1], ?_, ?_⟩
    · rw [k2, h2, linuxTaken_cons op a ops as, List.map_append, List.append_assoc]
    · rw [linuxReceived_cons, linuxArrivals_cons, List.append_assoc, k3, ← List.append_assoc, h3, List.filterMap_append, List.append_assoc]

/-! ### C108 -/

/-- **C108.** Whatever is done with a driver: no call panics as long as the IDs have 29 bits and the socket takes frames of these lengths. Written to the socket are exactly the frames for which
`transmit` returned `Ok` and whose deadlines had not passed, in the order of the calls. What `receive` returned, followed by what waits, are all extended frames of at most the capacity and all
errors of the socket, in their order. -/
theorem C108_linux {fits : Nat → Bool} {capacity : Nat} {ops : List (LinuxOp E)} (hv : LinuxValid fits ops) :
    ∃ d as, Linux.run fits capacity ⟨[], []⟩ ops = some (d, as) ∧ d.written = (linuxTaken ops as).map asSock ∧
      linuxReceived as ++ d.incoming.filterMap (SockItem.worth capacity) = (linuxArrivals ops).filterMap (SockItem.worth capacity) := by
  obtain ⟨d, as, h1, h2, h3⟩ := linux_run (capacity := capacity) ⟨[], []⟩ hv
  exact ⟨d, as, h1, by simpa using h2, by simpa using h3⟩

/-- **C108.** A received frame carries the current time and is not marked as a copy of an own one; `WouldBlock` means that nothing waits. -/
theorem C108_receive (d : Linux E) (capacity : Nat) (now : Instant) :
    match (d.receive capacity now).2 with
    | .frame f => f.timestamp = now ∧ f.loopback = false
    | .wouldBlock => d.incoming.filterMap (SockItem.worth capacity) = []
    | .error _ => True := by
  have h := linuxReceive_does capacity now d.incoming
  unfold Linux.receive
  dsimp only
  cases hr : (linuxReceive capacity now d.incoming).2 with
  | frame f => rw [hr] at h; exact h.2
  | error e => trivial
  | wouldBlock =>
    rw [hr] at h
    rw [← h.1, h.2]
    rfl

/-- **C108.** `transmit` never gives back another frame, and after `WouldBlock` or an error nothing has changed. It returns `WouldBlock` exactly if the frame is in time and the socket has no
space, and an error exactly if the frame is in time and the socket returns this error. -/
theorem C108_transmit {fits : Nat → Bool} {d d' : Linux E} {now : Instant} {answer : WriteResult E} {f : Frame} {r : TransmitResult E} (h : d.transmit fits now answer f = some (d', r)) :
    (∀ g, r ≠ .ok (some g)) ∧ (r ≠ .ok none → d' = d) ∧ (r = .wouldBlock ↔ Instant.before f.timestamp now = false ∧ answer = .wouldBlock) ∧
      ∀ e, r = .other e ↔ Instant.before f.timestamp now = false ∧ answer = .error e := by
  unfold Linux.transmit at h
  cases hb : Instant.before f.timestamp now with
  | true =>
    rw [hb, if_pos rfl] at h
    cases h
    exact ⟨by simp, by simp, by simp, by simp⟩
  | false =>
    rw [hb, if_neg (by simp)] at h
    split at h
    · split at h
      · split at h <;> cases h <;> exact ⟨by simp, by simp, by simp, by simp⟩
      · cases h
    · cases h

/-- A frame in time, a frame too late, a full socket; then a standard frame, an extended one and an error are read. -/
def someLinux : List (LinuxOp Bool) :=
  [.transmit 5#32 .ok { timestamp := 9#32, id := 0x107d5577#32, loopback := true, data := [1#8, 0xe0#8] },
   .transmit 5#32 .ok { timestamp := 4#32, id := 0x107d5577#32, loopback := false, data := [2#8, 0xe1#8] },
   .transmit 6#32 .wouldBlock { timestamp := 9#32, id := 0x107d5577#32, loopback := false, data := [3#8, 0xe2#8] },
   .arrive (.frame ⟨.standard 5#11, [1#8]⟩), .arrive (.frame ⟨.extended 7#29, [4#8, 0xe0#8]⟩), .arrive (.error true), .receive 10#32, .receive 11#32, .receive 12#32]

example : LinuxValid (· ≤ 8) someLinux := by
  intro now answer f h
  simp only [someLinux, List.mem_cons, LinuxOp.transmit.injEq, reduceCtorEq, List.not_mem_nil, or_false] at h
  obtain ⟨-, -, rfl⟩ | ⟨-, -, rfl⟩ | ⟨-, -, rfl⟩ := h <;> exact ⟨by decide, by decide⟩

example : (Linux.run (· ≤ 8) 8 ⟨[], []⟩ someLinux).map (fun p => (p.1.written, linuxReceived p.2, p.1.incoming)) =
    some ([⟨.extended 0x107d5577#29, [1#8, 0xe0#8]⟩], [.frame 7#32 [4#8, 0xe0#8], .error true], []) := by decide +kernel

/-- The frames that `receive` returned with the loopback flag. -/
def linuxCopies : List (LinuxAnswer E) → List Frame
  | .received (.frame f) :: as => if f.loopback then f :: linuxCopies as else linuxCopies as
  | _ :: as => linuxCopies as
  | [] => []

/-- **C108.** The documentation of `Frame` promises a copy of a frame with the loopback flag (`canadensis_can/src/data.rs` L84-86); the Linux driver never returns one, whatever happens. -/
theorem C108_no_loopback {fits : Nat → Bool} {capacity : Nat} : ∀ {ops : List (LinuxOp E)} {d d' : Linux E} {as : List (LinuxAnswer E)}, d.run fits capacity ops = some (d', as) →
    linuxCopies as = []
  | [], d, d', as, h => by cases h; rfl
  | op :: ops, d, d', as, h => by
    simp only [Linux.run] at h
    cases h1 : d.step fits capacity op with
    | none => simp [h1] at h
    | some p =>
      obtain ⟨d1, a⟩ := p
      simp only [h1] at h
      obtain ⟨⟨d2, as2⟩, h2, h3⟩ := Option.map_eq_some_iff.1 h
      cases h3
      have ih := C108_no_loopback h2
      cases op with
      | transmit now answer f =>
        simp only [Linux.step] at h1
        obtain ⟨p, -, h4⟩ := Option.map_eq_some_iff.1 h1
        cases h4
        exact ih
      | arrive x => cases h1; exact ih
      | receive now =>
        cases h1
        have := C108_receive d capacity now
        cases hr : (d.receive capacity now).2 with
        | frame f =>
          rw [hr] at this
          simp only [linuxCopies, this.2, Bool.false_eq_true, if_false]
          exact ih
        | wouldBlock => exact ih
        | error e => exact ih

end Verif.Drv
