import Verif.Can.Stream
import Mathlib.Data.List.Forall2

/-!
C100: a stream of transfers over a bus that loses frames.
-/

namespace Verif.Can

open Verif.Crc (crc16 be16)

/-! ### Lemmas -/

theorem recorder_all (fs : List Frame) : ∀ (l : List Frame) (n : Nat), transmitAll recorder fs (l, n) = some ((l ++ fs, n), .ok) := by
  induction fs with
  | nil => intro l n; simp [transmitAll]
  | cons f fs ih =>
    intro l n
    rw [transmitAll]
    show transmitAll recorder fs (l ++ [f], n) = _
    rw [ih]
    simp

theorem recorder_eq (fs : List Frame) : reserveAndTransmit recorder fs ([], 0) = some ((fs, fs.length), .ok) := by
  show transmitAll recorder fs ([], fs.length) = _
  rw [recorder_all, List.nil_append]

theorem sentAs_unique {cap mtu : Nat} {t : CanTransfer} {fs fs' : List Frame} (h : SentAs cap mtu t fs) (h' : SentAs cap mtu t fs') : fs = fs' := by
  have h1 := (h _ _ recorder ([], 0)).symm.trans (h' _ _ recorder ([], 0))
  rw [recorder_eq, recorder_eq] at h1
  simp only [Option.some.injEq, Prod.mk.injEq] at h1
  exact h1.1.1

theorem sentAs_of {cap mtu : Nat} {t : CanTransfer} {fs : List Frame} (hm : 1 < mtu) (hl : LegalLength mtu) (hcap : mtu ≤ cap)
    (h : (pushInner recorder cap mtu t ([], 0)).map (fun p => p.1.1) = some fs) : SentAs cap mtu t fs := by
  obtain ⟨id, padding, fs', h1, h2, h3⟩ := C05_segmentation cap mtu t hm hl hcap
  rw [h3, recorder_eq] at h
  cases h
  exact fun σ E d s => h3 d s

theorem sentAs_segmentation {cap mtu : Nat} {t : CanTransfer} {fs : List Frame} (hm : 1 < mtu) (hl : LegalLength mtu) (hcap : mtu ≤ cap) (h : SentAs cap mtu t fs) :
    ∃ id padding, makeCanId t.header t.payload = some id ∧ Segmentation mtu t id padding fs ∧ padding < mtu := by
  obtain ⟨id, padding, fs', h1, h2, h3⟩ := C05_segmentation cap mtu t hm hl hcap
  have e := sentAs_unique (fs' := fs') h fun σ E d s => h3 d s
  subst e
  refine ⟨id, padding, h1, h2, ?_⟩
  have hlast := List.getLast?_eq_some_getLast h2.nonempty
  have := (h2.minimal _ hlast).1
  have := (h2.legal _ (List.getLast_mem h2.nonempty)).1
  omega

/-- Where the receiver is in the stream: at the beginning, or `d` transfers after the last one of which a frame arrived. -/
def Position (v : View) (next : Tid) (items : List Item) : Prop :=
  (v.state.session = none ∧ v.state.lastTransferTime = none) ∨
  ∃ (d : Nat) (tid : Tid), 1 ≤ d ∧ After tid v.state ∧ next = tid + BitVec.ofNat 5 d ∧
    ((items.takeWhile fun it => it.arrived.isEmpty).length < items.length → d + (items.takeWhile fun it => it.arrived.isEmpty).length ≤ 30)

theorem ready_of_after {v : View} {tid next : Tid} {d : Nat} (h1 : 1 ≤ d) (h2 : d ≤ 30) (ha : After tid v.state) (hn : next = tid + BitVec.ofNat 5 d) (now : Instant) :
    Ready v next now := by
  have e : ∀ a : Nat, a < 32 → tid + BitVec.ofNat 5 d = tid + BitVec.ofNat 5 a → d = a := by
    intro a ha h
    have := congrArg BitVec.toNat ((BitVec.add_right_inj tid).1 h)
    simp only [BitVec.toNat_ofNat] at this
    omega
  have e' : ∀ a : Nat, a < 32 → tid + BitVec.ofNat 5 d + 1#5 = tid + BitVec.ofNat 5 a → d + 1 = a := by
    intro a ha h
    rw [BitVec.add_assoc] at h
    have := congrArg BitVec.toNat ((BitVec.add_right_inj tid).1 h)
    simp only [BitVec.toNat_ofNat, BitVec.toNat_add] at this
    omega
  constructor
  · rintro ⟨hd, -⟩
    rw [hn, increment_eq] at hd
    rcases ha with ha | ⟨ha, -⟩
    · have := e' 0 (by omega) (by rw [hd, ha]; simp)
      omega
    · have := e' 1 (by omega) (by rw [hd, ha, increment_eq])
      omega
  · rcases ha with ha | ⟨-, ha⟩
    · right
      intro h
      have := e 0 (by omega) (by rw [← hn, ← h, ha]; simp)
      omega
    · exact .inl ha

theorem stream_aux {checks : Bool} {cap mtu : Nat} {lb : Bool} {key : Key} (hm : 1 < mtu) (hl : LegalLength mtu) (hcap : mtu ≤ cap) :
    ∀ {items : List Item} {r r' : Receiver} {v : View} {ts : List CanTransfer} {next : Tid},
    (∀ it ∈ items, it.Sound cap mtu lb) → (∀ it ∈ items, key.Matches it.transfer.header) →
    (∀ it ∈ items, ∀ d, it.transfer.header.destination = some d → lb = false → r.id = some d) →
    (∀ it, items.head? = some it → it.transfer.header.transferId = next) → Consecutive items → NotAllLost items → Position v next items → r.view key = some v →
    r.exec checks (items.flatMap fun it => it.arrived.map fun g => .frame g false) = some (r', ts) →
    ∃ outs, ts = outs.flatten ∧ List.Forall₂ (Outcome mtu lb v.extent) items outs
  | [], r, r', v, ts, next, _, _, _, _, _, _, _, _, he => by
    cases he
    exact ⟨[], rfl, .nil⟩
  | it :: items, r, r', v, ts, next, hs, hk, hd, hn, hc, hg, hp, hview, he => by
    have hn0 := hn it rfl
    obtain ⟨hsent, fs', hsub, harr⟩ := hs it List.mem_cons_self
    obtain ⟨id, padding, hid, hseg, hpad⟩ := sentAs_segmentation hm hl hcap hsent
    have hk0 := hk it List.mem_cons_self
    have hd0 := hd it List.mem_cons_self
    have hbelong := arrived_belong hid hseg (by rw [hk0.2.2]; simp) hsub harr
    rw [List.flatMap_cons, exec_append] at he
    cases hx : r.exec checks (it.arrived.map fun g => .frame g false) with
    | none => rw [hx] at he; cases he
    | some q =>
      obtain ⟨r1, out⟩ := q
      rw [hx, Option.bind_some] at he
      cases hy : r1.exec checks (items.flatMap fun it => it.arrived.map fun g => .frame g false) with
      | none => rw [hy] at he; cases he
      | some q2 =>
        obtain ⟨r2, ts2⟩ := q2
        rw [hy] at he
        simp only [Option.map_some, Option.some.injEq, Prod.mk.injEq] at he
        obtain ⟨rfl, rfl⟩ := he
        -- not a duplicate, at any time, if a frame arrives
        have hready : it.arrived ≠ [] → ∀ now, Ready v it.transfer.header.transferId now := by
          intro hne now
          rcases hp with ⟨p1, p2⟩ | ⟨d, tid, p1, p2, p3, p4⟩
          · exact ⟨(fun ⟨_, t0, h, _⟩ => by rw [p2] at h; exact nomatch h), .inl p1⟩
          · have : (it.arrived.isEmpty) = false := by simpa using hne
            simp only [List.takeWhile_cons, this, Bool.false_eq_true, if_false, List.length_nil, List.length_cons] at p4
            exact ready_of_after p1 (by have := p4 (by omega); omega) p2 (by rw [hn0]; exact p3) now
        have hdup : After it.transfer.header.transferId v.state ∨ ∀ g ∈ it.arrived, ¬ Duplicate v it.transfer.header.transferId g.timestamp :=
          .inr fun g hg => (hready (List.ne_nil_of_mem hg) _).1
        obtain ⟨i1, ⟨st, i2, i3, i4⟩, i5, i6⟩ := receive_some hk0 hbelong hd0 hview hdup hx
        have hdrop : ∀ i, i + 30 ≤ items.length → ∃ it ∈ (items.drop i).take 30, it.arrived ≠ [] := by
          intro i hi
          have := hg (i + 1) (by rw [List.length_cons]; omega)
          rwa [List.drop_succ_cons] at this
        have hpos : Position { v with state := st } next.increment items := by
          by_cases hne : it.arrived = []
          · rcases hp with ⟨p1, p2⟩ | ⟨d, tid, p1, p2, p3, p4⟩
            · exact .inl ⟨by rw [i4 hne]; exact p1, by rw [i4 hne]; exact p2⟩
            · refine .inr ⟨d + 1, tid, by omega, by rw [i4 hne]; exact p2, ?_, ?_⟩
              · rw [increment_eq, p3, BitVec.add_assoc]
                congr 1
                apply BitVec.eq_of_toNat_eq
                simp
              · simp only [List.takeWhile_cons, hne, List.isEmpty_nil, if_true, List.length_cons] at p4
                intro hlt
                have := p4 (by omega)
                omega
          · refine .inr ⟨1, it.transfer.header.transferId, by omega, i3 (.inr hne), by rw [hn0, increment_eq], ?_⟩
            intro hlt
            by_contra hbig
            obtain ⟨x, hx1, hx2⟩ := hdrop 0 (by omega)
            rw [List.drop_zero] at hx1
            have hpre := List.takeWhile_prefix (l := items) fun it : Item => it.arrived.isEmpty
            have hmem : x ∈ items.takeWhile fun it => it.arrived.isEmpty := by
              obtain ⟨rest, hr⟩ := hpre
              rw [← hr, List.take_append_of_le_length (by omega)] at hx1
              exact List.mem_of_mem_take hx1
            exact hx2 (by simpa using List.all_eq_true.1 (List.all_takeWhile (l := items) (p := fun it : Item => it.arrived.isEmpty)) x hmem)
        have hcons : Consecutive items := by
          intro i hi
          have := hc (i + 1) (by rw [List.length_cons]; omega)
          simpa using this
        obtain ⟨outs, o1, o2⟩ := stream_aux hm hl hcap (next := next.increment) (fun x hx => hs x (List.mem_cons_of_mem _ hx)) (fun x hx => hk x (List.mem_cons_of_mem _ hx))
          (fun x hx => by rw [i1]; exact hd x (List.mem_cons_of_mem _ hx))
          (by
            intro x hx
            cases items with
            | nil => cases hx
            | cons y ys =>
              cases hx
              have := hc 0 (by simp)
              simp only [Nat.zero_add, List.getElem_cons_succ, List.getElem_cons_zero] at this
              rw [this, hn0])
          hcons hdrop hpos i2 hy
        refine ⟨out :: outs, by rw [List.flatten_cons, o1], .cons ?_ o2⟩
        refine ⟨Nat.le_trans i5 (arrived_ends hseg hsub harr), i6, ?_, ?_⟩
        · intro h
          rw [h] at hx
          cases hx
          rfl
        · intro hw
          obtain ⟨hlen, hcont, hread⟩ := arrives_read hid hseg hw (Or.inl (by rw [hk0.2.2]; simp))
          have hne : it.arrived ≠ [] := by
            intro h
            rw [h] at hlen
            exact hseg.nonempty (List.length_eq_zero_iff.1 hlen.symm)
          obtain ⟨g0, gs, hgs⟩ := List.exists_cons_of_ne_nil hne
          have hg0 : it.arrived.head? = some g0 := by rw [hgs]; rfl
          obtain ⟨-, r1', h2⟩ := receive_all (checks := checks) hread hk0 hd0 hview g0 hg0 (hready hne _) (it.transfer.payload ++ List.replicate padding 0#8)
            (by rw [hcont, hseg.content, hlen])
          rw [hx] at h2
          simp only [Option.some.injEq, Prod.mk.injEq] at h2
          exact ⟨g0, padding, hg0, hpad, h2.2⟩

/-! ### C100 -/

/-- **C100.** A node sends transfers of one session one after the other; each has the transfer ID after that of the one before. Frames may be lost, in any number and anywhere, but of
30 transfers in a row at least one frame arrives. A receiver that subscribed before, and does anything else in between, delivers for each transfer in turn what `Outcome`
says: every transfer of which no frame is lost arrives, once, in order, whatever happened to the others. -/
theorem C100_stream {checks : Bool} {cap mtu : Nat} {lb : Bool} {key : Key} (hm : 1 < mtu) (hl : LegalLength mtu) (hcap : mtu ≤ cap) {items : List Item}
    (hsound : ∀ it ∈ items, it.Sound cap mtu lb) (hkey : ∀ it ∈ items, key.Matches it.transfer.header) (hc : Consecutive items) (hg : NotAllLost items)
    {r r' : Receiver} {v : View} (hview : r.view key = some v) (hfresh : v.state.session = none ∧ v.state.lastTransferTime = none)
    (hdest : ∀ it ∈ items, ∀ d, it.transfer.header.destination = some d → lb = false → r.id = some d)
    {ops : List Op} (hv : ∀ op ∈ ops, op.Valid) (hops : ops.filter key.relevant = items.flatMap fun it => it.arrived.map fun g => .frame g false)
    {ts : List CanTransfer} (he : r.exec checks ops = some (r', ts)) :
    ∃ outs, transfersOf key ts = outs.flatten ∧ List.Forall₂ (Outcome mtu lb v.extent) items outs := by
  obtain ⟨r'', h1, -⟩ := C10_session_independence key hv he
  rw [hops] at h1
  cases items with
  | nil =>
    simp only [List.flatMap_nil, Receiver.exec, Option.some.injEq, Prod.mk.injEq] at h1
    exact ⟨[], h1.2.symm, .nil⟩
  | cons it items =>
    exact stream_aux hm hl hcap (next := it.transfer.header.transferId) hsound hkey hdest (fun x hx => by cases hx; rfl) hc hg (.inl hfresh) hview h1

/-- **C100.** A transfer has frames, and only one list of frames. -/
theorem C100_frames {cap mtu : Nat} (hm : 1 < mtu) (hl : LegalLength mtu) (hcap : mtu ≤ cap) (t : CanTransfer) : ∃! fs, SentAs cap mtu t fs := by
  obtain ⟨id, padding, fs', h1, h2, h3⟩ := C05_segmentation cap mtu t hm hl hcap
  exact ⟨fs', fun σ E d s => h3 d s, fun fs h => sentAs_unique h fun σ E d s => h3 d s⟩

/-- **C100.** Without losses, the delivered transfers are the sent ones: as many, in order, with their headers but for the time, and with their payloads, up to zeros after them,
cut to the extent. -/
theorem C100_no_loss {checks : Bool} {cap mtu : Nat} {lb : Bool} {key : Key} (hm : 1 < mtu) (hl : LegalLength mtu) (hcap : mtu ≤ cap) {items : List Item}
    (hsent : ∀ it ∈ items, SentAs cap mtu it.transfer it.frames) (hwhole : ∀ it ∈ items, it.Whole lb) (hkey : ∀ it ∈ items, key.Matches it.transfer.header)
    (hc : Consecutive items)
    {r r' : Receiver} {v : View} (hview : r.view key = some v) (hfresh : v.state.session = none ∧ v.state.lastTransferTime = none)
    (hdest : ∀ it ∈ items, ∀ d, it.transfer.header.destination = some d → lb = false → r.id = some d)
    {ops : List Op} (hv : ∀ op ∈ ops, op.Valid) (hops : ops.filter key.relevant = items.flatMap fun it => it.arrived.map fun g => .frame g false)
    {ts : List CanTransfer} (he : r.exec checks ops = some (r', ts)) :
    List.Forall₂ (fun it out => ∃ now padding, padding < mtu ∧
      out = { header := it.transfer.header.setTimestamp now, loopback := lb, payload := (it.transfer.payload ++ List.replicate padding 0#8).take v.extent })
      items (transfersOf key ts) := by
  have hne : ∀ it ∈ items, it.arrived ≠ [] := by
    intro it hit h
    obtain ⟨id, padding, -, hseg, -⟩ := sentAs_segmentation hm hl hcap (hsent it hit)
    have := (hwhole it hit).1
    rw [h] at this
    exact hseg.nonempty (List.map_eq_nil_iff.1 this.symm)
  have hg : NotAllLost items := by
    intro i hi
    have h1 : (items.drop i).take 30 ≠ [] := by
      intro h
      have := congrArg List.length h
      simp only [List.length_take, List.length_drop, List.length_nil] at this
      omega
    obtain ⟨x, xs, hx⟩ := List.exists_cons_of_ne_nil h1
    have hmem : x ∈ (items.drop i).take 30 := by rw [hx]; exact List.mem_cons_self
    exact ⟨x, hmem, hne x (List.mem_of_mem_drop (List.mem_of_mem_take hmem))⟩
  obtain ⟨outs, h1, h2⟩ := C100_stream hm hl hcap (fun it hit => ⟨hsent it hit, it.frames, List.Sublist.refl _, hwhole it hit⟩) hkey hc hg hview hfresh hdest hv hops he
  rw [h1]
  clear h1 hops hc hg hdest hkey hsent hne
  induction h2 with
  | nil => exact .nil
  | @cons it out items outs h _ ih =>
    obtain ⟨first, padding, -, hp, rfl⟩ := h.whole (hwhole it List.mem_cons_self)
    exact .cons ⟨_, _, hp, rfl⟩ (ih fun x hx => hwhole x (List.mem_cons_of_mem _ hx))

/-! ### A case: three transfers of two frames each; of the second one, one frame is lost -/

/-- The transfers: 8 bytes over classic CAN. -/
def streamTransfer (i : Nat) : CanTransfer :=
  { header := .message { timestamp := 9#32, transferId := BitVec.ofNat 5 (30 + i), priority := 4#3, subject := 100#13, source := some 9#7 }
    loopback := false, payload := (List.range 8).map (fun j => BitVec.ofNat 8 (10 * i + j)) }

/-- Their frames. -/
def streamFrames (i : Nat) : List Frame := ((pushInner recorder 8 8 (streamTransfer i) ([], 0)).map (fun p => p.1.1)).getD []

/-- The transfers and what arrives of them: all but the first frame of the second one. -/
def streamItems : List Item :=
  (List.range 3).map fun i => { transfer := streamTransfer i, frames := streamFrames i, arrived := if i = 1 then (streamFrames i).drop 1 else streamFrames i }

/-- What happens at the receiver: between them are a frame of another node and a subscription. -/
def streamOps : List Op :=
  let frames := streamItems.flatMap fun it => it.arrived.map fun g => Op.frame g false
  frames.take 1 ++ [.frame { timestamp := 19#32, id := 0x10606408#32, loopback := false, data := [5#8, 0xe0#8] } false, .subscribeMessage false 101#13 7 1000#32] ++ frames.drop 1

theorem streamFrames_sent (i : Nat) : SentAs 8 8 (streamTransfer i) (streamFrames i) := by
  apply sentAs_of (by omega) (by decide) (by omega)
  obtain ⟨id, padding, fs', h1, h2, h3⟩ := C05_segmentation 8 8 (streamTransfer i) (by omega) (by decide) (by omega)
  unfold streamFrames
  rw [h3, recorder_eq]
  rfl

theorem streamFrames_loopback : ∀ i < 3, ∀ g ∈ streamFrames i, g.loopback = false := by decide +kernel

example : (∀ it ∈ streamItems, it.Sound 8 8 false) ∧ (∀ it ∈ streamItems, (Key.mk .message 100 9#7).Matches it.transfer.header) ∧ Consecutive streamItems ∧
    NotAllLost streamItems ∧ streamOps.filter (Key.mk .message 100 9#7).relevant = (streamItems.flatMap fun it => it.arrived.map fun g => .frame g false) ∧
    (demoSubscribed.exec true streamOps).map (fun p => (transfersOf (Key.mk .message 100 9#7) p.2).map fun t => (t.header.transferId, t.payload)) =
      some [(30#5, [0#8, 1#8, 2#8, 3#8, 4#8, 5#8, 6#8]), (0#5, [20#8, 21#8, 22#8, 23#8, 24#8, 25#8, 26#8])] := by
  refine ⟨?_, by decide +kernel, ?_, ?_, by decide +kernel, by decide +kernel⟩
  · intro it hit
    obtain ⟨i, hi, rfl⟩ := List.mem_map.1 hit
    have hi := List.mem_range.1 hi
    refine ⟨streamFrames_sent i, _, ?_, rfl, ?_⟩
    · dsimp only
      split
      · exact List.drop_sublist _ _
      · exact List.Sublist.refl _
    · intro g hg
      dsimp only at hg
      split at hg
      · exact streamFrames_loopback i hi g (List.mem_of_mem_drop hg)
      · exact streamFrames_loopback i hi g hg
  · intro i hi
    have : i = 0 ∨ i = 1 := by simp [streamItems] at hi; omega
    rcases this with rfl | rfl <;> rfl
  · intro i hi
    simp [streamItems] at hi

/-- **C100.** The bound cannot be 31: if a transfer was delivered, only the first frame of the next one arrives and then nothing for 30 transfers, the 31st transfer after it is
taken for a repetition and is not delivered, although all its frames arrive. -/
theorem C100_limit : ∃ (items : List Item), (∀ it ∈ items, it.transfer.header.kind = .message ∧ SentAs 8 8 it.transfer it.frames) ∧ Consecutive items ∧
    (∀ i, i + 31 ≤ items.length → ∃ it ∈ (items.drop i).take 31, it.arrived ≠ []) ∧ (∀ it, items.getLast? = some it → it.arrived = it.frames ∧ it.frames ≠ []) ∧
    (demoSubscribed.exec true (items.flatMap fun it => it.arrived.map fun g => .frame g false)).map (fun p => p.2.map fun t => t.header.transferId) =
      some ((items.take 1).map fun it => it.transfer.header.transferId) := by
  refine ⟨(List.range 33).map (fun i => Item.mk (streamTransfer i) (streamFrames i)
    (if i = 0 then streamFrames i else if i = 1 then (streamFrames i).take 1 else if i = 32 then streamFrames i else [])), ?_, ?_, ?_, ?_, by decide +kernel⟩
  · intro it hit
    obtain ⟨i, -, rfl⟩ := List.mem_map.1 hit
    exact ⟨rfl, streamFrames_sent i⟩
  · intro i hi
    simp only [List.length_map, List.length_range] at hi
    simp only [List.getElem_map, List.getElem_range, increment_eq]
    show BitVec.ofNat 5 (30 + (i + 1)) = BitVec.ofNat 5 (30 + i) + 1#5
    apply BitVec.eq_of_toNat_eq
    simp only [BitVec.toNat_ofNat, BitVec.toNat_add]
    omega
  · intro i hi
    simp only [List.length_map, List.length_range] at hi
    have : i = 0 ∨ i = 1 ∨ i = 2 := by omega
    rcases this with rfl | rfl | rfl
    · exact ⟨_, List.mem_cons_self, by decide +kernel⟩
    · exact ⟨_, List.mem_cons_self, by decide +kernel⟩
    · exact ⟨{ transfer := streamTransfer 32, frames := streamFrames 32, arrived := streamFrames 32 }, List.mem_of_getElem? (i := 30) rfl, by decide +kernel⟩
  · intro it hit
    cases hit
    exact ⟨rfl, by decide +kernel⟩

end Verif.Can
