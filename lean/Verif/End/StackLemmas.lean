import Verif.End.StackSpec
import Verif.End.Props
import Verif.Drv.KeepProps

/-!
Lemmas about the device of C117: it does to queue and controller what a system of C109 does.
-/

namespace Verif.End

open Verif.Node Verif.Dsdl Verif.Enc Verif.Can Verif.Drv

theorem sends_cons (op : DeviceOp) (ops : List DeviceOp) : sends (op :: ops) = sends [op] ++ sends ops := by
  unfold sends
  rw [← List.filterMap_append]
  rfl

theorem shown_cons (op : DeviceOp) (ops : List DeviceOp) : shown (op :: ops) = shown [op] ++ shown ops := by simp [shown]

theorem clockTimes_append (a b : List SysOp) : clockTimes (a ++ b) = clockTimes a ++ clockTimes b := by simp [clockTimes]

theorem clockTimes_pushes (fs : List Frame) : clockTimes (fs.map SysOp.push) = [] := by
  induction fs with
  | nil => rfl
  | cons f fs ih => rw [List.map_cons, show clockTimes (.push f :: fs.map SysOp.push) = clockTimes (fs.map SysOp.push) from rfl, ih]

/-- The frames of a transfer. -/
def framesOf (cap : Nat) (t : CanTransfer) : List Frame := ((pushInner recorder cap 8 t ([], 0)).map (fun p => p.1.1)).getD []

theorem framesOf_sent {cap : Nat} (hcap : 8 ≤ cap) (t : CanTransfer) : SentAs cap 8 t (framesOf cap t) := by
  apply sentAs_of (by omega) (by decide) hcap
  obtain ⟨id, padding, fs', h1, h2, h3⟩ := C05_segmentation cap 8 t (by omega) (by decide) hcap
  unfold framesOf
  rw [h3, recorder_eq]
  rfl

/-- The frames of the transfers that were accepted. -/
def acceptedFrames (cap : Nat) (answers : List (CanTransfer × PushResult Empty)) : List Frame :=
  answers.flatMap fun a => if a.2 = .ok then framesOf cap a.1 else []

theorem framesOf_valid {cap : Nat} (hcap : 8 ≤ cap) {t : CanTransfer} {f : Frame} (hf : f ∈ framesOf cap t) : Drv.Valid f ∧ f.timestamp = t.header.timestamp := by
  obtain ⟨id, padding, h1, h2, -⟩ := sentAs_segmentation (by omega) (by decide) hcap (framesOf_sent hcap t)
  obtain ⟨id', k1, k2, -⟩ := C04_can_id_roundtrip t.header t.payload
  rw [h1] at k1
  cases k1
  refine ⟨⟨?_, (h2.legal f hf).1⟩, (h2.fields f hf).2.1⟩
  rw [(h2.fields f hf).1]
  exact k2

/-- Pushes for which there is room. -/
theorem run_pushes (choose : Chooser) {N : Nat} : ∀ (fs : List Frame) (s : Sys N), s.q.Ok → s.q.toList.length + fs.length ≤ N →
    ∃ q', transmitAll (singleQueueDriver Empty (arrayQueueImpl N)) fs s.q = some (q', .ok) ∧ s.run choose (fs.map SysOp.push) = some { s with q := q', accepted := s.accepted ++ fs }
  | [], s, _, _ => ⟨s.q, rfl, by simp [Sys.run]⟩
  | f :: fs, s, hok, hroom => by
    simp only [List.length_cons] at hroom
    obtain ⟨q1, h1, h2, h3⟩ := (arrayQueue_correct N).push s.q f hok
    have hlt : s.q.toList.length < N := by omega
    rw [if_pos hlt] at h3
    rw [decide_eq_true hlt] at h1
    obtain ⟨q', h4, h5⟩ := run_pushes choose fs { s with q := q1, accepted := s.accepted ++ [f] } h2 (by dsimp only; rw [h3, insertBehind_length]; omega)
    refine ⟨q', ?_, ?_⟩
    · simp only [transmitAll, singleQueueDriver, h1, Option.map_some, if_true]
      exact h4
    · rw [List.map_cons]
      simp only [Sys.run, Sys.step, singleQueueDriver, h1, Option.map_some, if_true, Option.bind_some, h5]
      simp

/-- `push` on the queue: all frames or none. -/
theorem push_queue (choose : Chooser) {cap : Nat} (hcap : 8 ≤ cap) {N : Nat} (s : Sys N) (hok : s.q.Ok) (tr : Transmitter) (hmtu : tr.mtu = 8) (t : CanTransfer) :
    ∃ tr' q' r, tr.push (singleQueueDriver Empty (arrayQueueImpl N)) cap t s.q = some (tr', q', r) ∧ tr'.mtu = 8 ∧
      ((r = .ok ∧ s.run choose ((framesOf cap t).map SysOp.push) = some { s with q := q', accepted := s.accepted ++ framesOf cap t }) ∨ (r = .memory ∧ q' = s.q)) := by
  have hsent := framesOf_sent hcap t
  generalize framesOf cap t = fs at hsent
  have hpush := hsent _ _ (singleQueueDriver Empty (arrayQueueImpl N)) s.q
  have hres : (singleQueueDriver Empty (arrayQueueImpl N)).tryReserve s.q fs.length = some (s.q, decide (s.q.toList.length + fs.length ≤ N)) := by
    show (s.q.tryReserve fs.length).map (fun b => (s.q, b)) = _
    unfold ArrayQueue.tryReserve
    have hlen := toList_length hok
    have hb := hok.bound
    rw [if_pos hb, Option.map_some, hlen]
    congr 3
    exact propext ⟨by omega, by omega⟩
  unfold reserveAndTransmit at hpush
  rw [hres] at hpush
  unfold Transmitter.push
  rw [hmtu]
  by_cases hroom : s.q.toList.length + fs.length ≤ N
  · obtain ⟨q', h1, h2⟩ := run_pushes choose fs s hok hroom
    rw [decide_eq_true hroom] at hpush
    simp only [h1] at hpush
    rw [hpush]
    exact ⟨_, q', _, rfl, rfl, .inl ⟨rfl, h2⟩⟩
  · rw [decide_eq_false hroom] at hpush
    rw [hpush]
    exact ⟨_, _, _, rfl, rfl, .inr ⟨rfl, rfl⟩⟩

/-- The system of C109 that does the same. -/
structure Like (cap : Nat) {N : Nat} (dev : Device N) (s : Sys N) : Prop where
  q : s.q = dev.q
  d : s.d = dev.d
  events : s.events = dev.events
  accepted : s.accepted = acceptedFrames cap dev.answers
  mtu : dev.transmitter.mtu = 8

theorem run_append (choose : Chooser) {N : Nat} : ∀ (a b : List SysOp) (s : Sys N), s.run choose (a ++ b) = (s.run choose a).bind fun s => s.run choose b
  | [], _, _ => rfl
  | op :: a, b, s => by
    rw [List.cons_append]
    simp only [Sys.run]
    cases s.step choose op with
    | none => rfl
    | some s1 => exact run_append choose a b s1

/-- The record of accepted frames matters to nothing. -/
theorem step_record {choose : Chooser} {N : Nat} {s s' : Sys N} {op : SysOp} (hop : ∀ f, op ≠ .push f) (h : s.step choose op = some s') :
    (Sys.mk s.q s.d [] s.events).step choose op = some ⟨s'.q, s'.d, [], s'.events⟩ ∧ s'.accepted = s.accepted := by
  cases op with
  | push f => exact absurd rfl (hop f)
  | flush fuel times turns =>
    simp only [Sys.step] at h ⊢
    split at h
    · cases h
    · split at h
      · cases h
      · cases h
        rename_i k2
        rw [if_neg k2]
        exact ⟨rfl, rfl⟩
  | bus i now => cases h; exact ⟨rfl, rfl⟩
  | arrive x => cases h; exact ⟨rfl, rfl⟩
  | receive now => cases h; exact ⟨rfl, rfl⟩

theorem other_like {choose : Chooser} (hch : choose.OneOfEachId) {cap N : Nat} {dev : Device N} {s : Sys N} (hl : Like cap dev s) (hg : SysGood s) {op : SysOp} (hop : ∀ f, op ≠ .push f) :
    ∃ dev' s', dev.other choose op = some dev' ∧ s.run choose [op] = some s' ∧ Like cap dev' s' ∧ SysGood s' ∧ dev'.answers = dev.answers := by
  obtain ⟨s', h1, h2⟩ := sys_step hch hg (op := op) (fun f he => absurd he (hop f))
  obtain ⟨h3, h4⟩ := step_record hop h1
  rw [hl.q, hl.d, hl.events] at h3
  unfold Device.other
  rw [h3]
  exact ⟨_, s', rfl, by simp [Sys.run, h1], ⟨rfl, rfl, rfl, h4.trans hl.accepted, hl.mtu⟩, h2, rfl⟩

theorem step_like {choose : Chooser} (hch : choose.OneOfEachId) {cap : Nat} (hcap : 8 ≤ cap) {N : Nat} {dev : Device N} {s : Sys N} (hl : Like cap dev s) (hg : SysGood s) (op : DeviceOp) :
    ∃ dev' s', ∃ sysOps : List SysOp, ∃ answers : List (CanTransfer × PushResult Empty), dev.step choose cap op = some dev' ∧ s.run choose sysOps = some s' ∧ Like cap dev' s' ∧ SysGood s' ∧
      dev'.answers = dev.answers ++ answers ∧ answers.map Prod.fst = sends [op] ∧ clockTimes sysOps = shown [op] ∧
      ∀ f, .push f ∈ sysOps → ∃ t ∈ sends [op], f ∈ framesOf cap t := by
  have others : ∀ o : SysOp, (∀ f, o ≠ .push f) → dev.step choose cap op = dev.other choose o → sends [op] = [] → clockTimes [o] = shown [op] →
      ∃ dev' s', ∃ sysOps : List SysOp, ∃ answers : List (CanTransfer × PushResult Empty), dev.step choose cap op = some dev' ∧ s.run choose sysOps = some s' ∧ Like cap dev' s' ∧ SysGood s' ∧
      dev'.answers = dev.answers ++ answers ∧ answers.map Prod.fst = sends [op] ∧ clockTimes sysOps = shown [op] ∧
      ∀ f, .push f ∈ sysOps → ∃ t ∈ sends [op], f ∈ framesOf cap t := by
    intro o ho he hs ht
    obtain ⟨dev', s', h1, h2, h3, h4, h5⟩ := other_like hch hl hg ho
    exact ⟨dev', s', [o], [], he.trans h1, h2, h3, h4, by rw [h5, List.append_nil], by rw [hs]; rfl, ht, fun f hf => absurd (List.mem_singleton.1 hf).symm (ho f)⟩
  cases op with
  | send t =>
    obtain ⟨tr', q', r, h1, h2, h3⟩ := push_queue choose hcap s hg.ok dev.transmitter hl.mtu t
    rw [hl.q] at h1
    refine ⟨{ dev with transmitter := tr', q := q', answers := dev.answers ++ [(t, r)] }, ?_⟩
    have hstep : dev.step choose cap (.send t) = some { dev with transmitter := tr', q := q', answers := dev.answers ++ [(t, r)] } := by
      simp only [Device.step, h1]
    rcases h3 with ⟨rfl, h3⟩ | ⟨rfl, rfl⟩
    · have hmem : ∀ f, SysOp.push f ∈ (framesOf cap t).map SysOp.push → f ∈ framesOf cap t := by
        intro f hf
        obtain ⟨g, hg, he⟩ := List.mem_map.1 hf
        cases he
        exact hg
      obtain ⟨s2, k1, k2⟩ := sys_run hch hg (ops := (framesOf cap t).map SysOp.push) (fun f hf => (framesOf_valid hcap (hmem f hf)).1)
      rw [h3] at k1
      cases k1
      refine ⟨_, _, [(t, .ok)], hstep, h3, ⟨rfl, hl.d, hl.events, ?_, h2⟩, k2, rfl, rfl, clockTimes_pushes _, fun f hf => ⟨t, List.mem_singleton.2 rfl, hmem f hf⟩⟩
      dsimp only
      rw [hl.accepted]
      simp [acceptedFrames]
    · refine ⟨s, [], [(t, .memory)], hstep, rfl, ⟨rfl, hl.d, hl.events, ?_, h2⟩, hg, rfl, rfl, rfl, fun f hf => (nomatch hf)⟩
      dsimp only
      rw [hl.accepted]
      simp [acceptedFrames]
  | flush fuel times turns => exact others (.flush fuel times turns) (fun f h => nomatch h) rfl rfl rfl
  | bus i now => exact others (.bus i now) (fun f h => nomatch h) rfl rfl rfl
  | arrive x => exact others (.arrive x) (fun f h => nomatch h) rfl rfl rfl
  | receive now => exact others (.receive now) (fun f h => nomatch h) rfl rfl rfl

theorem run_like {choose : Chooser} (hch : choose.OneOfEachId) {cap : Nat} (hcap : 8 ≤ cap) {N : Nat} : ∀ (ops : List DeviceOp) {dev : Device N} {s : Sys N}, Like cap dev s → SysGood s →
    ∃ dev' s', ∃ sysOps : List SysOp, ∃ answers : List (CanTransfer × PushResult Empty), dev.run choose cap ops = some dev' ∧ s.run choose sysOps = some s' ∧ Like cap dev' s' ∧ SysGood s' ∧
      dev'.answers = dev.answers ++ answers ∧ answers.map Prod.fst = sends ops ∧ clockTimes sysOps = shown ops ∧
      ∀ f, .push f ∈ sysOps → ∃ t ∈ sends ops, f ∈ framesOf cap t
  | [], dev, s, hl, hg => ⟨dev, s, [], [], rfl, rfl, hl, hg, (List.append_nil _).symm, rfl, rfl, fun f hf => (nomatch hf)⟩
  | op :: ops, dev, s, hl, hg => by
    obtain ⟨dev1, s1, a1, b1, h1, h2, h3, h4, h5, h6, h7, h8⟩ := step_like hch hcap hl hg op
    obtain ⟨dev2, s2, a2, b2, k1, k2, k3, k4, k5, k6, k7, k8⟩ := run_like hch hcap ops h3 h4
    refine ⟨dev2, s2, a1 ++ a2, b1 ++ b2, by simp only [Device.run, h1, Option.bind_some, k1], by rw [run_append, h2]; exact k2, k3, k4, by rw [k5, h5, List.append_assoc], ?_, ?_, ?_⟩
    · rw [List.map_append, h6, k6, ← sends_cons]
    · rw [clockTimes_append, h7, k7, ← shown_cons]
    · intro f hf
      rw [sends_cons]
      rcases List.mem_append.1 hf with hf | hf
      · obtain ⟨t, ht, e⟩ := h8 f hf
        exact ⟨t, List.mem_append_left _ ht, e⟩
      · obtain ⟨t, ht, e⟩ := k8 f hf
        exact ⟨t, List.mem_append_right _ ht, e⟩

end Verif.End
