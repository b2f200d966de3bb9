import Verif.Reg.Lemmas

/-!
Lemmas about histories of register requests.
-/

namespace Verif.Reg

open Verif.Dsdl Verif.Enc Verif.Node Verif.App Verif.Pnp

variable {σ R N Tid Trk E : Type}

theorem parse_valid {p : List Byte} {q : AccessRequest} (h : parse accessRequestType AccessRequest.ofVal p = .ok q) :
    q.name = requestName p ∧ requestValue p = .content q.value.content ∧ q.value.valid := by
  have hp := parse_request p
  cases hc : requestValue p with
  | content c =>
    rw [hc] at hp
    obtain ⟨v, h1, h2, h3⟩ := hp
    rw [h1] at h
    injection h with h
    subst h
    exact ⟨rfl, by rw [h2], h3⟩
  | malformed => rw [hc] at hp; rw [hp] at h; cases h
  | bitOverflow => rw [hc] at hp; rw [hp] at h; cases h

theorem respond_keeps {node : CoreNode N Tid Trk} {env : Env E} {token : ResponseToken N Tid} {block : List R} {payload : Payload}
    {out : Handled (List R) N Tid Trk} (h : respond node env token block payload = some out) : out.state = block ∧ out.node = node := by
  unfold respond CoreNode.sendResponse at h
  cases hd : doSerialize payload env.alloc with
  | outOfMemory =>
    simp only [hd] at h
    injection h with h
    subst h
    exact ⟨rfl, rfl⟩
  | panic => simp only [hd] at h; cases h
  | bytes b =>
    cases hn : node.nodeId with
    | none => simp only [hd, hn] at h; cases h
    | some id =>
      simp only [hd, hn] at h
      have : ∀ a : Answer Tid E, a ≠ .panic → (match a with
          | .panic => (none : Option (Handled (List R) N Tid Trk))
          | _ => some ⟨true, block, node, [⟨.response ⟨env.now.plus (milliseconds 1000), token.transfer, token.priority, token.service, id, token.client⟩,
              false, b⟩], []⟩) = some out → out.state = block ∧ out.node = node := by
        intro a ha h
        cases a <;> first
          | exact absurd rfl ha
          | (injection h with h; subst h; exact ⟨rfl, rfl⟩)
      exact this _ (by cases env.push <;> simp [Push.answer]) h

/-- What an access request can do to a block: nothing, or one write to a mutable register. -/
def Touched (ops : RegisterOps R) (block block' : List R) : Prop :=
  block' = block ∨ ∃ i r v ok r', block[i]? = some r ∧ (ops.access r).isMutable = true ∧ v.valid ∧ ops.write r v = some (ok, r') ∧ block' = block.set i r'

theorem set_same {block : List R} {i : Nat} {r : R} (hr : block[i]? = some r) : block.set i r = block := by
  obtain ⟨h1, h2⟩ := List.getElem?_eq_some_iff.1 hr
  rw [← h2]
  exact List.set_getElem_self h1

theorem access_touched (s : Style) (ops : RegisterOps R) (utf8 : List Byte → Bool) (block block' : List R) (q : AccessRequest) (hv : q.value.valid)
    (resp : AccessResponse) (h : s.access ops utf8 block q = some (resp, block')) : Touched ops block block' := by
  cases s with
  | handler =>
    simp only [Style.access, RegisterHandler.access, byIndex, handleAccess] at h
    split at h
    case isFalse => injection h with h; exact .inl (Prod.mk.inj h).2.symm
    split at h
    · injection h with h; exact .inl (Prod.mk.inj h).2.symm
    · rename_i i _
      split at h
      · cases h
      · rename_i r hr
        split at h
        · cases h
        · rename_i r' hw
          cases hread : ops.read r' with
          | none => rw [hread] at h; cases h
          | some v =>
            rw [hread] at h
            injection h with h
            have hb := (Prod.mk.inj h).2
            simp only at hb
            have key : ∀ b : Bool, (if ((ops.access r).isMutable && b) = true then (ops.write r q.value).map Prod.snd else some r) = some r' →
                Touched ops block block' := by
              intro b hw
              split at hw
              · rename_i hm
                simp only [Bool.and_eq_true] at hm
                cases hwr : ops.write r q.value with
                | none => rw [hwr] at hw; cases hw
                | some x =>
                  rw [hwr] at hw
                  injection hw with hw
                  exact .inr ⟨i, r, q.value, x.1, r', hr, hm.1, hv, by rw [hwr, ← hw], hb.symm⟩
              · injection hw with hw
                subst hw
                rw [set_same hr] at hb
                exact .inl hb.symm
            exact key _ hw
  | service =>
    simp only [Style.access, RegisterServer.access, byIndex] at h
    split at h
    case isFalse => injection h with h; exact .inl (Prod.mk.inj h).2.symm
    split at h
    · injection h with h; exact .inl (Prod.mk.inj h).2.symm
    · rename_i i _
      split at h
      · cases h
      · rename_i r hr
        split at h
        · cases h
        · rename_i r' hw
          cases hread : ops.read r' with
          | none => rw [hread] at h; cases h
          | some v =>
            rw [hread] at h
            injection h with h
            have hb := (Prod.mk.inj h).2
            split at hw
            · rename_i hm
              cases hwr : ops.write r q.value with
              | none => rw [hwr] at hw; cases hw
              | some x =>
                rw [hwr] at hw
                injection hw with hw
                exact .inr ⟨i, r, q.value, x.1, r', hr, hm, hv, by rw [hwr, ← hw], hb.symm⟩
            · injection hw with hw
              subst hw
              rw [set_same hr] at hb
              exact .inl hb.symm

theorem handles_touched (s : Style) (ops : RegisterOps R) (utf8 : List Byte → Bool) (block : List R) (node : CoreNode N Tid Trk) (env : Env E)
    (token : ResponseToken N Tid) (header : ServiceHeader N Tid) (p : List Byte) (out : Handled (List R) N Tid Trk)
    (h : handleRequest (s.access ops utf8) ops block node env token header p = some out) : Touched ops block out.state ∧ out.node = node := by
  unfold handleRequest at h
  split at h
  · split at h
    · cases h
    · injection h with h
      subst h
      exact ⟨.inl rfl, rfl⟩
    · rename_i q hq
      split at h
      · cases h
      · rename_i resp block' ha
        have := respond_keeps h
        rw [this.1]
        exact ⟨access_touched s ops utf8 block block' q (parse_valid hq).2.2 resp ha, this.2⟩
  · split at h
    · split at h
      · cases h
      · injection h with h
        subst h
        exact ⟨.inl rfl, rfl⟩
      · split at h
        · cases h
        · have := respond_keeps h
          rw [this.1]
          exact ⟨.inl rfl, this.2⟩
    · injection h with h
      subst h
      exact ⟨.inl rfl, rfl⟩

theorem blockRun_cons (access : List R → AccessRequest → Option (AccessResponse × List R)) (ops : RegisterOps R) (tids : TidOps Tid)
    (tops : TrackerOps N Tid Trk) (w w' : List R × CoreNode N Tid Trk) (op : BlockOp N Tid E) (rest : List (BlockOp N Tid E))
    (h : blockRun access ops tids tops w (op :: rest) = some w') :
    ∃ w1, blockStep access ops tids tops w op = some w1 ∧ blockRun access ops tids tops w1 rest = some w' := by
  unfold blockRun at h ⊢
  rw [List.foldlM_cons] at h
  cases hs : blockStep access ops tids tops w op with
  | none => rw [hs] at h; cases h
  | some w1 => rw [hs] at h; exact ⟨w1, rfl, h⟩

/-- An invariant of registers that writes of valid values keep is kept by every history. -/
theorem blockRun_invariant (s : Style) (ops : RegisterOps R) (utf8 : List Byte → Bool) (tids : TidOps Tid) (tops : TrackerOps N Tid Trk) (I : R → Prop)
    (hI : ∀ r v ok r', v.valid → ops.write r v = some (ok, r') → I r → I r') (history : List (BlockOp N Tid E))
    (hw : ∀ i v, BlockOp.write i v ∈ history → v.valid) : ∀ (w w' : List R × CoreNode N Tid Trk), (∀ r ∈ w.1, I r) →
    blockRun (s.access ops utf8) ops tids tops w history = some w' → ∀ r ∈ w'.1, I r := by
  have hset : ∀ (block : List R) (i : Nat) (r' : R), (∀ r ∈ block, I r) → I r' → ∀ r ∈ block.set i r', I r := by
    intro block i r' hb hr' r hr
    rcases List.mem_or_eq_of_mem_set hr with h | h
    · exact hb r h
    · rw [h]; exact hr'
  induction history with
  | nil =>
    intro w w' h hrun
    injection hrun with hrun
    rw [← hrun]
    exact h
  | cons op rest ih =>
    intro w w' h hrun
    obtain ⟨w1, h1, h2⟩ := blockRun_cons _ _ _ _ _ _ _ _ hrun
    refine ih (fun i v hm => hw i v (by simp [hm])) w1 w' ?_ h2
    cases op with
    | request env token header p =>
      simp only [blockStep] at h1
      cases ho : handleRequest (s.access ops utf8) ops w.1 w.2 env token header p with
      | none => rw [ho] at h1; cases h1
      | some out =>
        rw [ho] at h1
        injection h1 with h1
        subst h1
        rcases (handles_touched s ops utf8 _ _ _ _ _ _ _ ho).1 with e | ⟨i, r, v, ok, r', g1, -, g3, g4, g5⟩
        · show ∀ r ∈ out.state, I r
          rw [e]; exact h
        · show ∀ r ∈ out.state, I r
          rw [g5]
          exact hset _ _ _ h (hI r v ok r' g3 g4 (h r (List.mem_of_getElem? g1)))
    | write i v =>
      simp only [blockStep, byIndex] at h1
      split at h1
      · injection h1 with h1
        subst h1
        exact h
      · rename_i r hr
        cases hwr : ops.write r v with
        | none => rw [hwr] at h1; cases h1
        | some x =>
          rw [hwr] at h1
          injection h1 with h1
          subst h1
          exact hset _ _ _ h (hI r v x.1 x.2 (hw i v (by simp)) hwr (h r (List.mem_of_getElem? hr)))
    | other op =>
      simp only [blockStep] at h1
      injection h1 with h1
      subst h1
      exact h

theorem step_nodeId (ops : TidOps Tid) (tops : TrackerOps N Tid Trk) (node : CoreNode N Tid Trk) (op : Op N Tid E) (h : node.nodeId.isSome = true) :
    (node.step ops tops op).node.nodeId.isSome = true := by
  cases op <;> simp only [CoreNode.step]
  case startPublishing => unfold CoreNode.startPublishing; split <;> [exact h; (split <;> exact h)]
  case stopPublishing => exact h
  case publish => unfold CoreNode.publish; split <;> exact h
  case startSendingRequests =>
    unfold CoreNode.startSendingRequests
    split
    · exact h
    · split
      · exact h
      · split
        · exact h
        · dsimp only
          split <;> exact h
  case stopSendingRequests => exact h
  case sendRequest => unfold CoreNode.sendRequest; split <;> [exact h; (split <;> exact h)]
  case subscribeMessage => exact h
  case unsubscribeMessage => exact h
  case subscribeRequest => exact h
  case unsubscribeRequest => exact h
  case sendResponse => unfold CoreNode.sendResponse; dsimp only; split <;> [exact h; exact h; (split <;> exact h)]
  case setNodeId => rfl

/-! ### The store -/

theorem Register.plain_fits {r : Register σ} (h : r.plain = true) : r.fits = true := by
  cases r with
  | simple n a c => cases c <;> first | exact h | rfl
  | validated => cases h
  | fixed => exact h

theorem Register.plain_accepts {r : Register σ} (h : r.plain = true) (hm : r.access.isMutable = true) (c : Content) :
    r.accepts c = r.content.sameForm c := by
  cases r with
  | simple n a cell =>
    simp only [Register.accepts, Register.content]
    cases cell with
    | number k x =>
      match c with
      | .numbers k' [y] =>
        simp only [Cell.holding, Cell.content, Content.sameForm, List.length_singleton, decide_true, Bool.and_true]
        by_cases hk : k' = k
        · rw [dif_pos hk, Option.isSome_some]
          exact (decide_eq_true hk.symm).symm
        · rw [dif_neg hk]
          simp [Ne.symm hk]
      | .numbers _ [] => simp [Cell.holding, Cell.content, Content.sameForm]
      | .numbers _ (_ :: _ :: _) => simp [Cell.holding, Cell.content, Content.sameForm]
      | .empty => rfl
      | .string _ => rfl
      | .unstructured _ => rfl
      | .bits _ => rfl
    | numbers k xs =>
      have hl : xs.length ≤ k.limit := of_decide_eq_true h
      cases c with
      | numbers k' ys =>
        simp only [Cell.holding, Cell.content, Content.sameForm, List.take_of_length_le hl]
        by_cases hk : k' = k
        · rw [dif_pos hk]
          by_cases hy : ys.length = xs.length
          · rw [if_pos hy]
            simp [hk, hy]
          · rw [if_neg hy]
            simp [Ne.symm hy]
        · rw [dif_neg hk]
          simp [Ne.symm hk]
      | _ => rfl
    | string b => cases c <;> rfl
    | unstructured b => cases c <;> rfl
    | bool b =>
      match c with
      | .bits [y] => simp [Cell.holding, Cell.content, Content.sameForm]
      | .bits [] => simp [Cell.holding, Cell.content, Content.sameForm]
      | .bits (_ :: _ :: _) => simp [Cell.holding, Cell.content, Content.sameForm]
      | .numbers _ _ => rfl
      | .empty => rfl
      | .string _ => rfl
      | .unstructured _ => rfl
    | bools bs =>
      cases c with
      | bits l =>
        simp only [Cell.holding, Cell.content, Content.sameForm]
        by_cases hl : l.length = bs.length
        · rw [if_pos hl]
          simp [hl]
        · rw [if_neg hl]
          simp [Ne.symm hl]
      | _ => rfl
  | validated => cases h
  | fixed => cases hm

theorem storeAccess_none {name : List Byte} {c : Content} : ∀ {block : List (Register σ)}, firstNamed Register.ops name block = none →
    storeAccess name c (block.map Register.entry) = (block.map Register.entry, ⟨false, false⟩, .empty)
  | [], _ => rfl
  | r :: rest, h => by
    rw [firstNamed] at h
    split at h
    · cases h
    · rename_i hn
      have hr : firstNamed Register.ops name rest = none := by simpa using h
      rw [List.map_cons, storeAccess, if_neg (show ¬ r.entry.name = name from hn), storeAccess_none hr]

theorem storeAccess_some {name : List Byte} {c : Content} : ∀ {block : List (Register σ)} {i : Nat} {r : Register σ},
    firstNamed Register.ops name block = some i → block[i]? = some r →
    storeAccess name c (block.map Register.entry) =
      ((block.map Register.entry).set i ⟨r.name, r.access, if r.access.isMutable && r.content.sameForm c then c else r.content⟩,
        r.access, if r.access.isMutable && r.content.sameForm c then c else r.content)
  | [], i, r, h, _ => by cases h
  | r0 :: rest, i, r, h, hr => by
    rw [firstNamed] at h
    split at h
    · rename_i hn
      injection h with h
      subst h
      injection hr with hr
      subst hr
      rw [List.map_cons, storeAccess, if_pos (show r0.entry.name = name from hn)]
      rfl
    · rename_i hn
      cases hj : firstNamed Register.ops name rest with
      | none => rw [hj] at h; cases h
      | some j =>
        rw [hj] at h
        injection h with h
        subst h
        rw [List.map_cons, storeAccess, if_neg (show ¬ r0.entry.name = name from hn), storeAccess_some hj (by simpa using hr)]
        rfl

theorem Cell.holding_numbers {c : Cell} {new : Content} {k : Kind} {ys : List (BitVec k.width)} (h : c.holding new = some (.numbers k ys)) :
    ∃ xs, c = .numbers k xs ∧ ys.length = xs.length := by
  cases c with
  | number k' x =>
    match new with
    | .numbers k2 [y] =>
      simp only [Cell.holding] at h
      split at h <;> cases h
    | .numbers _ [] => cases h
    | .numbers _ (_ :: _ :: _) => cases h
    | .empty => cases h
    | .string _ => cases h
    | .unstructured _ => cases h
    | .bits _ => cases h
  | numbers k' xs =>
    cases new with
    | numbers k2 zs =>
      simp only [Cell.holding] at h
      split at h
      · rename_i hk
        subst hk
        split at h
        · rename_i hl
          cases h
          exact ⟨xs, rfl, hl⟩
        · cases h
      · cases h
    | _ => cases h
  | string => cases new <;> cases h
  | unstructured => cases new <;> cases h
  | bool b =>
    match new with
    | .bits [y] => cases h
    | .bits [] => cases h
    | .bits (_ :: _ :: _) => cases h
    | .numbers _ _ => cases h
    | .empty => cases h
    | .string _ => cases h
    | .unstructured _ => cases h
  | bools b =>
    cases new with
    | bits l =>
      simp only [Cell.holding] at h
      split at h <;> cases h
    | _ => cases h

theorem Register.write_plain {r r' : Register σ} {v : Value} {ok : Bool} (hv : v.valid) (h : r.write v = some (ok, r')) (hp : r.plain = true) :
    r'.plain = true := by
  cases r with
  | validated => cases hp
  | fixed => cases h
  | simple n a c =>
    simp only [Register.write, c.write_spec v hv] at h
    cases hh : c.holding v.content with
    | none =>
      rw [hh] at h
      injection h with h
      rw [← (Prod.mk.inj h).2]
      exact hp
    | some c' =>
      rw [hh] at h
      injection h with h
      rw [← (Prod.mk.inj h).2]
      have hf := (c.holding_spec (Value.valid_fits hv) hh).2 (Register.plain_fits hp)
      cases c' with
      | numbers k ys =>
        obtain ⟨xs, e, hl⟩ := Cell.holding_numbers hh
        subst e
        have hp : xs.length ≤ k.limit := of_decide_eq_true hp
        exact decide_eq_true (show ys.length ≤ k.limit by omega)
      | _ => exact hf

end Verif.Reg
