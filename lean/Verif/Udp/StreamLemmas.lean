import Verif.Udp.StreamSpec
import Mathlib.Data.List.Forall2

/-! Lemmas about a session that gets any part of a stream of transfers. -/

namespace Verif.Udp

open Verif.Crc (Tracker)
open Verif.Hdr (NodeId16 Tid64 TransportHeader)

/-- The session has only had to do with older transfers than this one. -/
def Older (tid : Tid64) : Option Session → Prop
  | none => True
  | some (.complete _ last) => last < tid
  | some (.active a) => a.transferId < tid ∧ ∃ b, a.buildup = some b ∧ b.transferId < tid ∧ b.nextFrameIndex ≠ 0#32

/-- No transfer is incomplete. -/
def Idle : Option Session → Prop
  | some (.active _) => False
  | _ => True

theorem older_mono {t t' : Tid64} (h : t < t') : ∀ {s : Option Session}, Older t s → Older t' s
  | none, _ => trivial
  | some (.complete _ _), hs => BitVec.lt_trans hs h
  | some (.active _), ⟨h1, b, h2, h3, h4⟩ => ⟨BitVec.lt_trans h1 h, b, h2, BitVec.lt_trans h3 h, h4⟩

theorem building_older {n : Nat} {h : UdpHeader} {i : Nat} {m : List Byte} {a : ActiveSession} (hb : Building n h i m a) (ha : a.transferId = h.transferId) (h0 : 0 < i) (hi : i < 2 ^ 32) {t : Tid64}
    (ht : h.transferId < t) : Older t (some (.active a)) :=
  ⟨by rw [ha]; exact ht, _, hb, ht, ofNat_ne_zero h0 hi⟩

theorem ready_of_step {n : Nat} {timeout : Duration} {s : Option Session} {f : Frame} {p : Option Session × Output} (hs : Older f.header.transferId s) (hidle : Idle s)
    (hstep : f.step n timeout s = some p) : Ready timeout f.header.transferId f.now s := by
  cases s with
  | none => exact .new
  | some s =>
    cases s with
    | active a => exact hidle.elim
    | complete time last =>
      unfold Frame.step sessionStep Session.admit at hstep
      simp only at hstep
      cases hd : Instant.checkedDurationSince f.now time with
      | none => simp [Instant.sub?, hd] at hstep
      | some age => exact .later time last age hd (Or.inl hs)

/-- A datagram, but not the only one of its transfer, at a session without an incomplete transfer: the session takes it for the first one. -/
theorem step_start {n : Nat} {timeout : Duration} {h : UdpHeader} {i : Nat} {last : Bool} {c : List Byte} {s : Option Session} {f : Frame} {p : Option Session × Output}
    (hs : Older h.transferId s) (hidle : Idle s) (hf : IsFrame h i last c f) (hc : 4 ≤ c.length) (hi : i < 2 ^ 31) (hmore : 0 < i ∨ last = false) (hstep : f.step n timeout s = some p) :
    ∃ a, p = (some (.active a), .nothing) ∧ Building n h (i + 1) c a ∧ a.transferId = h.transferId := by
  have hr := ready_of_step (by rw [hf.header]; exact hs) hidle hstep
  rw [step_ready hf.memory.2 hr, hf.memory.1] at hstep
  unfold ActiveSession.accept ActiveSession.handleFrame at hstep
  rw [hf.header, hf.bytes, if_neg (by simp [transferCrcSize]; omega), if_neg (by
    rintro ⟨h1, h2⟩
    rcases hmore with h0 | h0
    · exact ofNat_ne_zero h0 (by omega) h1
    · rw [h0] at h2; cases h2)] at hstep
  simp only [freshSession, Buildup.new, collect_first, Bool.false_eq_true, if_false] at hstep
  refine ⟨_, (Option.some.inj hstep).symm, ?_, rfl⟩
  unfold Building
  simp [frameHeader, ofNat_succ]

/-- A datagram, but not the only one of its transfer, at a session with an incomplete older transfer: it is lost, together with that transfer. -/
theorem step_displaces {n : Nat} {timeout : Duration} {h : UdpHeader} {i : Nat} {last : Bool} {c : List Byte} {a : ActiveSession} {f : Frame}
    (hs : Older h.transferId (some (.active a))) (hf : IsFrame h i last c f) (hc : 4 ≤ c.length) (hi : i < 2 ^ 31) (hmore : 0 < i ∨ last = false) :
    f.step n timeout (some (.active a)) = some (none, .nothing) := by
  obtain ⟨-, b, hb, hlt, hne⟩ := hs
  unfold Frame.step sessionStep Session.admit
  simp only
  unfold ActiveSession.accept ActiveSession.handleFrame
  rw [hf.header, hf.bytes, if_neg (by simp [transferCrcSize]; omega), if_neg (by
    rintro ⟨h1, h2⟩
    rcases hmore with h0 | h0
    · exact ofNat_ne_zero h0 (by omega) h1
    · rw [h0] at h2; cases h2), hb]
  simp only
  have : ∃ e, b.push (frameHeader h i last) c = .error e := by
    unfold Buildup.push
    split
    · exact ⟨_, rfl⟩
    · rw [if_pos]
      · exact ⟨_, rfl⟩
      · intro he
        have he : h.transferId = b.transferId := he
        rw [he] at hlt
        exact absurd hlt (by simp)
  obtain ⟨e, he⟩ := this
  rw [he]

/-- A later datagram than the one that the session waits for: the transfer is given up. -/
theorem step_gap {n : Nat} {timeout : Duration} {h : UdpHeader} {i j : Nat} {last : Bool} {m c : List Byte} {a : ActiveSession} {f : Frame}
    (hb : Building n h j m a) (hf : IsFrame h i last c f) (hc : 4 ≤ c.length) (hi : i < 2 ^ 31) (hj : j < i) : f.step n timeout (some (.active a)) = some (none, .nothing) := by
  unfold Frame.step sessionStep Session.admit
  simp only
  unfold ActiveSession.accept ActiveSession.handleFrame
  rw [hf.header, hf.bytes, if_neg (by simp [transferCrcSize]; omega), if_neg (by rintro ⟨h1, -⟩; exact ofNat_ne_zero (by omega) (by omega) h1), show a.buildup = _ from hb]
  simp only
  unfold Buildup.push
  rw [if_pos (by
    intro he
    have := congrArg BitVec.toNat he
    simp only [frameHeader, BitVec.toNat_ofNat] at this
    omega)]

/-- The last datagram, and the CRC is not that of what was gathered. -/
theorem step_wrong {n : Nat} {timeout : Duration} {h : UdpHeader} {i : Nat} {m c : List Byte} {a : ActiveSession} {f : Frame}
    (hb : Building n h i m a) (hf : IsFrame h i true c f) (hc : 4 ≤ c.length) (hi : i < 2 ^ 31) (h0 : 0 < i)
    (hno : ∀ body, m ++ c ≠ body ++ Verif.Crc.le32 (Verif.Crc.crc32c body)) : f.step n timeout (some (.active a)) = some (none, .nothing) := by
  unfold Frame.step sessionStep Session.admit
  simp only
  unfold ActiveSession.accept ActiveSession.handleFrame
  rw [hf.header, hf.bytes, if_neg (by simp [transferCrcSize]; omega), if_neg (by rintro ⟨h1, -⟩; exact ofNat_ne_zero (by omega) (by omega) h1), show a.buildup = _ from hb]
  simp only
  rw [push_building]
  have hcor : (collected n (m ++ c)).2.correct = false := by
    rw [← Bool.not_eq_true, collected_correct]
    rintro ⟨body, hb⟩
    exact hno body hb
  simp only [hcor]
  simp [frameHeader]

/-- The only datagram of a transfer, whatever the session is about. -/
theorem step_only {n : Nat} {timeout : Duration} {h : UdpHeader} {body : List Byte} {s : Option Session} {f : Frame} {p : Option Session × Output}
    (hs : Older h.transferId s) (hf : IsFrame h 0 true (body ++ Verif.Crc.le32 (Verif.Crc.crc32c body)) f) (hstep : f.step n timeout s = some p) :
    ∃ time last, p = (some (.complete time last), .transfer { header := h.setTimestamp time, loopback := false, payload := body.take n }) ∧ last ≤ h.transferId := by
  by_cases hidle : Idle s
  · have hr := ready_of_step (by rw [hf.header]; exact hs) hidle hstep
    rw [hf.header] at hr
    rw [step_single hr hf] at hstep
    exact ⟨_, _, (Option.some.inj hstep).symm, BitVec.le_refl _⟩
  · match s, hs, hidle with
    | some (.active a), hs, _ =>
      unfold Frame.step sessionStep Session.admit at hstep
      simp only at hstep
      unfold ActiveSession.accept ActiveSession.handleFrame at hstep
      rw [hf.header, hf.bytes, if_neg (by simp [transferCrcSize, Verif.Crc.le32]), if_pos ⟨rfl, rfl⟩] at hstep
      have hcor : (collected n (body ++ Verif.Crc.le32 (Verif.Crc.crc32c body))).2.correct = true := (collected_correct n _).mpr ⟨body, rfl⟩
      have hbody : (collected n (body ++ Verif.Crc.le32 (Verif.Crc.crc32c body))).1 = body.take n := collected_body n body
      simp only [collect_first, hcor, hbody, hf.memory.1, Bool.false_eq_true, if_false, if_true] at hstep
      refine ⟨a.time, a.transferId, ?_, BitVec.le_of_lt hs.1⟩
      rw [← Option.some.inj hstep, convert_frameHeader]
    | none, _, hidle => exact (hidle trivial).elim
    | some (.complete _ _), _, hidle => exact (hidle trivial).elim

/-- Some of the datagrams `i`, `i+1`, ..., `N-1` of a transfer. -/
inductive Some' (h : UdpHeader) (N : Nat) : Nat → List (List Byte) → List Frame → Prop where
  | nil {i} : Some' h N i [] []
  | lost {i c cs fs} (hs : Some' h N (i + 1) cs fs) : Some' h N i (c :: cs) fs
  | here {i c cs f fs} (hf : IsFrame h i (i + 1 == N) c f) (hs : Some' h N (i + 1) cs fs) : Some' h N i (c :: cs) (f :: fs)

/-- In the middle of a transfer, of which the datagrams before `i` have passed: something of it is missing that cannot be made up for. -/
inductive Broken (n : Nat) (h : UdpHeader) (chunks : List (List Byte)) (i : Nat) : Option Session → Prop where
  | old {s} (h0 : 0 < i) (hs : Older h.transferId s) : Broken n h chunks i s
  | gathers {a : ActiveSession} {j k : Nat} (hb : Building n h k ((chunks.take k).drop j).flatten a) (ha : a.transferId = h.transferId) (hj : j < k) (hk : k ≤ i) (hm : 0 < j ∨ k < i) :
      Broken n h chunks i (some (.active a))

theorem broken_lost {n : Nat} {h : UdpHeader} {chunks : List (List Byte)} {i : Nat} {s : Option Session} (hb : Broken n h chunks i s) : Broken n h chunks (i + 1) s := by
  cases hb with
  | old h0 hs => exact .old (by omega) hs
  | gathers hb ha hj hk hm => exact .gathers hb ha hj (by omega) (by omega)

theorem broken_older {n : Nat} {h : UdpHeader} {chunks : List (List Byte)} {i : Nat} {s : Option Session} (hb : Broken n h chunks i s) (hi : i < 2 ^ 32) {t : Tid64} (ht : h.transferId < t) : Older t s := by
  cases hb with
  | old h0 hs => exact older_mono ht hs
  | gathers hb ha hj hk hm => exact building_older hb ha (by omega) (by omega) ht

theorem take_drop_succ {α : Type} {chunks cs : List (List α)} {c : List α} {i j : Nat} (hd : chunks.drop i = c :: cs) (hj : j ≤ i) :
    ((chunks.take (i + 1)).drop j).flatten = ((chunks.take i).drop j).flatten ++ c := by
  have hi : i < chunks.length := by
    by_contra hn
    rw [List.drop_eq_nil_of_le (by omega)] at hd
    cases hd
  have hc : chunks[i] = c := by
    have := List.drop_eq_getElem_cons hi
    rw [hd] at this
    exact (List.cons.inj this).1.symm
  rw [List.take_succ_eq_append_getElem hi, List.drop_append_of_le_length (by rw [List.length_take]; omega), List.flatten_append, hc]
  simp

theorem drop_succ {α : Type} {l cs : List α} {c : α} {i : Nat} (hd : l.drop i = c :: cs) : l.drop (i + 1) = cs ∧ i < l.length := by
  constructor
  · rw [← List.drop_drop, hd]; rfl
  · by_contra hn
    rw [List.drop_eq_nil_of_le (by omega)] at hd
    cases hd

theorem drop_last {α : Type} {l cs : List α} {c : α} {i : Nat} (hd : l.drop i = c :: cs) : (i + 1 == l.length) = cs.isEmpty := by
  have h1 := congrArg List.length hd
  rw [List.length_drop, List.length_cons] at h1
  cases cs with
  | nil => simp at h1 ⊢; omega
  | cons x xs => simp at h1 ⊢; omega

/-- Nothing comes of a transfer of which something is missing. -/
theorem run_broken {n : Nat} {timeout : Duration} {h : UdpHeader} {chunks : List (List Byte)} (hlen : ∀ c ∈ chunks, 4 ≤ c.length) (hcount : chunks.length ≤ 2 ^ 31)
    (hno : ∀ i body, 0 < i → i < chunks.length → (chunks.drop i).flatten ≠ body ++ Verif.Crc.le32 (Verif.Crc.crc32c body)) :
    ∀ {cs : List (List Byte)} {i : Nat} {s s' : Option Session} {fs : List Frame} {out : List UdpTransfer}, chunks.drop i = cs → i ≤ chunks.length → Some' h chunks.length i cs fs → Broken n h chunks i s →
      runSession n timeout s fs = some (s', out) → out = [] ∧ ∀ t, h.transferId < t → Older t s' := by
  intro cs
  induction cs with
  | nil =>
    intro i s s' fs out hd hle hf hb hrun
    cases hf
    cases hrun
    exact ⟨rfl, fun t ht => broken_older hb (by omega) ht⟩
  | cons c cs ih =>
    intro i s s' fs out hd hle hf hb hrun
    obtain ⟨hd', hi⟩ := drop_succ hd
    cases hf with
    | lost hs => exact ih hd' hi hs (broken_lost hb) hrun
    | @here _ _ _ f fs hf hs =>
      simp only [runSession] at hrun
      cases hstep : f.step n timeout s with
      | none => rw [hstep] at hrun; cases hrun
      | some p =>
        rw [hstep] at hrun
        simp only [Option.bind_some] at hrun
        obtain ⟨q, hq, he⟩ := Option.map_eq_some_iff.1 hrun
        have hc : 4 ≤ c.length := hlen c (List.mem_of_mem_drop (i := i) (by rw [hd]; exact List.mem_cons_self))
        have key : p.2 = .nothing ∧ Broken n h chunks (i + 1) p.1 := by
          cases hb with
          | old h0 hold =>
            by_cases hidle : Idle s
            · obtain ⟨a, rfl, h1, h2⟩ := step_start hold hidle hf hc (by omega) (Or.inl h0) hstep
              refine ⟨rfl, .gathers (j := i) (k := i + 1) ?_ h2 (by omega) (by omega) (Or.inl h0)⟩
              rw [take_drop_succ hd (Nat.le_refl i), List.drop_eq_nil_of_le (by rw [List.length_take]; omega)]
              exact h1
            · match s, hold, hidle with
              | some (.active a), hold, _ =>
                rw [step_displaces hold hf hc (by omega) (Or.inl h0)] at hstep
                cases hstep
                exact ⟨rfl, .old (by omega) trivial⟩
              | none, _, hidle => exact (hidle trivial).elim
              | some (.complete _ _), _, hidle => exact (hidle trivial).elim
          | @gathers a j k hb ha hj hk hm =>
            by_cases hki : k < i
            · rw [step_gap hb hf hc (by omega) hki] at hstep
              cases hstep
              exact ⟨rfl, .old (by omega) trivial⟩
            · have hki : k = i := by omega
              subst hki
              have hj0 : 0 < j := by omega
              rw [drop_last hd] at hf
              cases cs with
              | nil =>
                have hall : ((chunks.take k).drop j).flatten ++ c = (chunks.drop j).flatten := by
                  rw [← take_drop_succ hd (by omega), List.take_of_length_le]
                  have := congrArg List.length hd
                  rw [List.length_drop] at this
                  simp at this
                  omega
                rw [step_wrong hb hf hc (by omega) (by omega) (by
                  intro body
                  rw [hall]
                  exact hno j body hj0 (by omega))] at hstep
                cases hstep
                exact ⟨rfl, .old (by omega) trivial⟩
              | cons c' cs' =>
                obtain ⟨a', h1, h2, -, h4⟩ := step_middle (timeout := timeout) hb hf hc
                rw [h1] at hstep
                cases hstep
                refine ⟨rfl, .gathers (j := j) (k := k + 1) ?_ (h4.trans ha) (by omega) (by omega) (Or.inl hj0)⟩
                rw [take_drop_succ hd (by omega)]
                exact h2
        obtain ⟨i1, i2⟩ := ih hd' hi hs key.2 hq
        cases he
        rw [key.1]
        exact ⟨by simp [Output.transfers, i1], i2⟩

/-- Nothing comes of a transfer of which something is lost, even if it begins well. -/
theorem run_damaged {n : Nat} {timeout : Duration} {h : UdpHeader} {chunks : List (List Byte)} (hlen : ∀ c ∈ chunks, 4 ≤ c.length) (hcount : chunks.length ≤ 2 ^ 31)
    (hno : ∀ i body, 0 < i → i < chunks.length → (chunks.drop i).flatten ≠ body ++ Verif.Crc.le32 (Verif.Crc.crc32c body)) :
    ∀ {cs : List (List Byte)} {i : Nat} {a : ActiveSession} {s' : Option Session} {fs : List Frame} {out : List UdpTransfer}, chunks.drop i = cs → i ≤ chunks.length →
      Some' h chunks.length i cs fs → Building n h i (chunks.take i).flatten a → a.transferId = h.transferId → 0 < i → fs.length < cs.length →
      runSession n timeout (some (.active a)) fs = some (s', out) → out = [] ∧ ∀ t, h.transferId < t → Older t s' := by
  intro cs
  induction cs with
  | nil => intro i a s' fs out _ _ _ _ _ _ hl; simp at hl
  | cons c cs ih =>
    intro i a s' fs out hd hle hf hb ha h0 hl hrun
    obtain ⟨hd', hi⟩ := drop_succ hd
    have hc : 4 ≤ c.length := hlen c (List.mem_of_mem_drop (i := i) (by rw [hd]; exact List.mem_cons_self))
    cases hf with
    | lost hs =>
      exact run_broken hlen hcount hno hd' hi hs (.gathers (j := 0) (k := i) (by rw [List.drop_zero]; exact hb) ha h0 (by omega) (Or.inr (by omega))) hrun
    | @here _ _ _ f fs hf hs =>
      rw [drop_last hd] at hf
      cases cs with
      | nil => cases hs; simp at hl
      | cons c' cs' =>
        obtain ⟨a', h1, h2, -, h4⟩ := step_middle (timeout := timeout) hb hf hc
        simp only [runSession, h1, Option.bind_some] at hrun
        obtain ⟨q, hq, he⟩ := Option.map_eq_some_iff.1 hrun
        have hbuild : Building n h (i + 1) (chunks.take (i + 1)).flatten a' := by
          have := take_drop_succ hd (Nat.zero_le i)
          rw [List.drop_zero, List.drop_zero] at this
          rw [this]
          exact h2
        obtain ⟨i1, i2⟩ := ih hd' hi hs hbuild (h4.trans ha) (by omega) (by simp at hl ⊢; omega) hq
        cases he
        exact ⟨by simp [Output.transfers, i1], i2⟩

/-- All datagrams. -/
theorem some_all {h : UdpHeader} {N : Nat} : ∀ {cs : List (List Byte)} {i : Nat} {fs : List Frame}, Some' h N i cs fs → fs.length ≤ cs.length
  | _, _, _, .nil => Nat.le_refl _
  | _, _, _, .lost hs => by have := some_all hs; simp; omega
  | _, _, _, .here _ hs => by have := some_all hs; simp; omega

/-- A transfer of several datagrams of which something is lost, or that comes to a session with an incomplete transfer. -/
theorem run_lost {n : Nat} {timeout : Duration} {h : UdpHeader} {chunks : List (List Byte)} (hlen : ∀ c ∈ chunks, 4 ≤ c.length) (hcount : chunks.length ≤ 2 ^ 31) (htwo : 2 ≤ chunks.length)
    (hno : ∀ i body, 0 < i → i < chunks.length → (chunks.drop i).flatten ≠ body ++ Verif.Crc.le32 (Verif.Crc.crc32c body))
    {s s' : Option Session} {fs : List Frame} {out : List UdpTransfer} (hf : Some' h chunks.length 0 chunks fs) (hs : Older h.transferId s) (hbad : fs.length < chunks.length ∨ ¬ Idle s)
    (hrun : runSession n timeout s fs = some (s', out)) : out = [] ∧ ∀ t, h.transferId < t → Older t s' := by
  cases chunks with
  | nil => simp at htwo
  | cons c cs =>
    have hc : 4 ≤ c.length := hlen c List.mem_cons_self
    cases hf with
    | lost hs' => exact run_broken (i := 1) hlen hcount hno rfl (by omega) hs' (.old (by omega) hs) hrun
    | @here _ _ _ f fs hf hs' =>
      have hnl : ((0 + 1 == (c :: cs).length)) = false := by
        have : (c :: cs).length = cs.length + 1 := rfl
        rw [beq_eq_false_iff_ne]
        omega
      rw [hnl] at hf
      simp only [runSession] at hrun
      cases hstep : f.step n timeout s with
      | none => rw [hstep] at hrun; cases hrun
      | some p =>
        rw [hstep] at hrun
        simp only [Option.bind_some] at hrun
        obtain ⟨q, hq, he⟩ := Option.map_eq_some_iff.1 hrun
        by_cases hidle : Idle s
        · obtain ⟨a, rfl, h1, h2⟩ := step_start hs hidle hf hc (by omega) (Or.inr rfl) hstep
          obtain ⟨i1, i2⟩ := run_damaged (i := 1) hlen hcount hno rfl (by omega) hs' (by simpa using h1) h2 (by omega)
            (by rcases hbad with hb | hb
                · exact Nat.lt_of_succ_lt_succ hb
                · exact (hb hidle).elim) hq
          cases he
          exact ⟨by simp [Output.transfers, i1], i2⟩
        · match s, hs, hidle with
          | some (.active a), hs, _ =>
            rw [step_displaces hs hf hc (by omega) (Or.inr rfl)] at hstep
            cases hstep
            obtain ⟨i1, i2⟩ := run_broken (i := 1) (s := none) hlen hcount hno rfl (by omega) hs' (.old (by omega) (show Older h.transferId none from trivial)) hq
            cases he
            exact ⟨by simp [Output.transfers, i1], i2⟩
          | none, _, hidle => exact (hidle trivial).elim
          | some (.complete _ _), _, hidle => exact (hidle trivial).elim

/-- A transfer of three or more datagrams that comes to a session with an incomplete transfer clears the session. -/
theorem run_clears {n : Nat} {timeout : Duration} {h : UdpHeader} {chunks : List (List Byte)} (hlen : ∀ c ∈ chunks, 4 ≤ c.length) (hcount : chunks.length ≤ 2 ^ 31) (hthree : 3 ≤ chunks.length)
    (hno : ∀ i body, 0 < i → i < chunks.length → (chunks.drop i).flatten ≠ body ++ Verif.Crc.le32 (Verif.Crc.crc32c body))
    {a : ActiveSession} {fs : List Frame} (hw : Whole h chunks fs) (hs : Older h.transferId (some (.active a))) : runSession n timeout (some (.active a)) fs = some (none, []) := by
  obtain ⟨fs', g, last, h1, h2, h3, h4⟩ := hw
  match hch : chunks.dropLast, fs', h3 with
  | [], _, _ =>
    have := congrArg List.length hch
    rw [List.length_dropLast] at this
    simp at this
    omega
  | [c], _, _ =>
    have := congrArg List.length hch
    rw [List.length_dropLast] at this
    simp at this
    omega
  | c0 :: c1 :: cs, f0 :: f1 :: gs, ⟨hf0, hf1, hp⟩ =>
    have hmem : ∀ c ∈ c0 :: c1 :: cs, 4 ≤ c.length := fun c hc => hlen c ((List.dropLast_sublist _).subset (by rw [hch]; exact hc))
    have e0 := step_displaces (n := n) (timeout := timeout) hs hf0 (hmem c0 (by simp)) (by omega) (Or.inr rfl)
    obtain ⟨b, e1, e2, -⟩ : ∃ b, f1.step n timeout none = some (some (.active b), .nothing) ∧ Building n h 2 c1 b ∧ b.transferId = h.transferId := by
      cases hstep : f1.step n timeout none with
      | none =>
        exfalso
        unfold Frame.step sessionStep at hstep
        simp only at hstep
        split at hstep <;> cases hstep
      | some p =>
        obtain ⟨b, rfl, k1, k2⟩ := step_start (s := none) trivial trivial hf1 (hmem c1 (by simp)) (by omega) (Or.inl (by omega)) hstep
        exact ⟨b, rfl, k1, k2⟩
    obtain ⟨b', e3, e4, -, -⟩ := run_part (timeout := timeout) cs e2 hp (fun c hc => hmem c (by simp [hc]))
    have hl : cs.length + 3 = chunks.length := by
      have := congrArg List.length hch
      rw [List.length_dropLast] at this
      simp at this
      omega
    rw [show 2 + cs.length = chunks.length - 1 by omega] at e4
    have hall : (c1 ++ cs.flatten) ++ last = (chunks.drop 1).flatten := by
      rw [h2, hch]
      simp
    have e5 := step_wrong (timeout := timeout) e4 h4 (hlen last (by rw [h2]; simp)) (by omega) (by omega) (by
      intro body
      rw [hall]
      exact hno 1 body (by omega) (by omega))
    rw [h1]
    simp only [List.cons_append, runSession, e0, Option.bind_some, e1, runSession_append, e3, e5, Option.map_some, Output.transfers, List.append_nil]

/-! ### From datagrams to frames -/

theorem some_of {mtu : Nat} {h : UdpHeader} {N : Nat} : ∀ (cs : List (List Byte)) {i : Nat} {ps : List Packet},
    (ps.map (·.data)).Sublist (cs.mapIdx (fun j c => Verif.Hdr.encode (frameHeader h (i + j) (i + j + 1 == N)) ++ c)) →
    (∀ c ∈ cs, 4 ≤ c.length ∧ 24 + c.length ≤ mtu) → i + cs.length ≤ 2 ^ 31 →
    (∀ p ∈ ps, p.oom = false ∧ p.oomSession = false) → Some' h N i cs (ps.filterMap (Packet.frame mtu)) ∧ (ps.filterMap (Packet.frame mtu)).length = ps.length
  | [], i, ps, hd, _, _, _ => by
    rw [List.mapIdx_nil, List.sublist_nil, List.map_eq_nil_iff] at hd
    subst hd
    exact ⟨.nil, rfl⟩
  | c :: cs, i, ps, hd, hc, hi, ho => by
    rw [List.mapIdx_cons] at hd
    have hshift : (cs.mapIdx fun j c => Verif.Hdr.encode (frameHeader h (i + (j + 1)) (i + (j + 1) + 1 == N)) ++ c) =
        cs.mapIdx fun j c => Verif.Hdr.encode (frameHeader h (i + 1 + j) (i + 1 + j + 1 == N)) ++ c := by
      congr 1
      funext j c'
      rw [show i + (j + 1) = i + 1 + j by omega]
    rw [hshift] at hd
    simp only [List.length_cons] at hi
    rcases List.sublist_cons_iff.1 hd with hd | ⟨r, hr, hd⟩
    · obtain ⟨h1, h2⟩ := some_of cs hd (fun c hc' => hc c (by simp [hc'])) (by omega) ho
      exact ⟨.lost h1, h2⟩
    · cases ps with
      | nil => cases hr
      | cons p ps =>
        rw [List.map_cons, List.cons.injEq] at hr
        obtain ⟨hr1, rfl⟩ := hr
        have hf := datagram_frame (mtu := mtu) (i := i) hr1 (by omega) (hc c (by simp)).2
        rw [if_neg (by have := (hc c (by simp)).1; omega)] at hf
        rw [List.filterMap_cons_some hf]
        obtain ⟨h1, h2⟩ := some_of cs hd (fun c hc' => hc c (by simp [hc'])) (by omega) (fun p hp => ho p (by simp [hp]))
        exact ⟨.here ⟨rfl, rfl, ho p (by simp)⟩ h1, by simp [h2]⟩

end Verif.Udp
