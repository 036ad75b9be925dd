import Verif.Proof.Carried

/-!
# C146: under a fair scheduler what a call hands over reaches a broker
-/

namespace Neutron.Props

open Neutron Neutron.App Neutron.World Neutron.Sys Proto

variable {T : Type}

/-- **C146.** Every command a client has handed over reaches a broker, whole, if engine and connections keep working, the client is not
starved, and the commands are valid ones of ordinary size: whatever the brokers answer, and also if the call that handed it over or the
client has meanwhile been dropped.  (A `Connect` arrives with the authentication data and the address to proxy to filled in.) -/
theorem C146_commands {cfg : World.Cfg T} {σ : Nat → App.State T} {acts : Nat → App.Act} (h : App.Forever cfg σ acts)
    (hp : KeepWorking cfg.sys (sysOf σ) (roundsOf cfg σ acts)) (hb : ∀ n, (sysOf σ n).nClients ≤ 2 ^ 64)
    (hfit : ∀ n, World.Fits (σ n).world) {i : Nat} (hs : Served cfg σ acts i) {n : Nat} (hi : i < (sysOf σ n).nClients) {cmd : ClientCmd}
    (hc : cmd ∈ ((sysOf σ n).clients i).submitted) :
    Reaches σ fun v => ∃ now out, Outbound.toCommand now out = .ok v ∧
      (out = cmd.out ∨ ∃ c auth c2, cmd.out = .connect c ∧ Sys.connectFor cfg.sys c auth = .ok c2 ∧ out = .connect c2) := by
  obtain ⟨m, b, v, hrec, now, out, hv, hcp⟩ := submitted_received h hp hb hfit hs hi hc
  refine ⟨m, b, v, hrec, now, out, hv, ?_⟩
  unfold Sys.Passes at hcp
  split at hcp
  · rename_i k' hk'
    obtain ⟨auth, c2, e1, e2⟩ := hcp
    exact .inr ⟨k', auth, c2, hk', e1, e2⟩
  · exact .inl hcp

/-- **C146.** Every request a call of the application has handed over reaches a broker, as the command with the arguments of that step of
the call and the id and name of its client. -/
theorem C146_handed_over {cfg : World.Cfg T} {σ : Nat → App.State T} {acts : Nat → App.Act} (h : App.Forever cfg σ acts)
    (hp : KeepWorking cfg.sys (sysOf σ) (roundsOf cfg σ acts)) (hb : ∀ n, (sysOf σ n).nClients ≤ 2 ^ 64)
    (hfit : ∀ n, World.Fits (σ n).world) {i : Nat} (hs : Served cfg σ acts i) {n : Nat} {j : Job} (hj : j ∈ (σ n).jobs)
    (hc : j.client = some i) {c : Call} {t : Nat} (hh : .handed c (.ok t) ∈ j.events) (hx : c.expectsResponse = true) :
    Reaches σ (Carries cfg.sys i ((sysOf σ n).clients i).core.clientName c) := by
  obtain ⟨as, log, hrun⟩ := run_at h n
  obtain ⟨hi, ho⟩ := in_order hrun j hj i hc
  have ht : t ∈ requests j.events := List.mem_filterMap.mpr ⟨_, hh, by simp [hx]⟩
  obtain ⟨cmd, hcmd, hct⟩ := List.mem_filterMap.mp (ho.subset ht)
  have hiss := Sys.submitted_issued (forever_reachable (app_forever h) n) i hi cmd hcmd t hct
  obtain ⟨_, req, seq, hreq⟩ := request_of hrun hj hc hh hx
  have hout : cmd.out = ((⟨UInt64.ofNat i, ((sysOf σ n).clients i).core.clientName, req, seq⟩ : Client).issue c).2 := by
    change (sysOf σ n).issued[t]? = _ at hreq
    rw [hreq] at hiss
    exact ((Prod.mk.inj (Option.some.inj hiss)).2).symm
  obtain ⟨m, b, v, hrec, now, out, hv, hcp⟩ := submitted_received h hp hb hfit hs hi hcmd
  rw [hout] at hcp
  exact ⟨m, b, v, hrec, carries hx hcp hv⟩

/-- **C146.** A call on a client that hands over certain requests before it waits for anything: each of them reaches a broker, if moreover
the scheduler does not neglect the call and its future is not dropped. -/
theorem C146_call {cfg : World.Cfg T} {σ : Nat → App.State T} {acts : Nat → App.Act} (h : App.Forever cfg σ acts)
    (hp : KeepWorking cfg.sys (sysOf σ) (roundsOf cfg σ acts)) (hb : ∀ n, (sysOf σ n).nClients ≤ 2 ^ 64)
    (hfit : ∀ n, World.Fits (σ n).world) {i : Nat} (hs : Served cfg σ acts i) {k n : Nat} {j : Job} (hk : (σ n).jobs[k]? = some j)
    (hl : j.live = true) (hd : ∀ m, acts m ≠ .drop k) (hf : FairTo cfg σ acts k) {p : Prog Unit} (hm : j.made = .call i p)
    {cs : List Call} (hcs : HandsOver cs p) {c : Call} (hc : c ∈ cs) (hx : c.expectsResponse = true) :
    Reaches σ (Carries cfg.sys i ((sysOf σ n).clients i).core.clientName c) := by
  obtain ⟨m, j', hk', hm', hw⟩ := rests h hp.loops hp.regs hk hl hd hf
  obtain ⟨_, _, hrun⟩ := run_at h m
  obtain ⟨_, _, hrun0⟩ := run_at h n
  have hj' := List.mem_of_getElem? hk'
  obtain ⟨hcl, hall⟩ := handed_by hrun (not_stopped (app_forever h) hp.loops m) hj' (hm'.trans hm) hcs hw
  obtain ⟨t, ht⟩ := hall c hc
  have := C146_handed_over h hp hb hfit hs hj' hcl ht hx
  have hcl0 := (within hrun0 j (List.mem_of_getElem? hk) i p hm).1
  have hi := ((seen hrun _ hj').client i hcl).1
  have hi0 := ((seen hrun0 _ (List.mem_of_getElem? hk)).client i hcl0).1
  have hname : ((sysOf σ m).clients i).core.clientName = ((sysOf σ n).clients i).core.clientName := by
    rcases Nat.le_total n m with hnm | hnm
    · exact name_to h hnm hi0
    · exact (name_to h hnm hi).symm
  rw [← hname]; exact this

/-- **C146.** What the calls of the library hand over before they wait for anything. -/
theorem C146_library {V : Type} (serialize : V → Option Bytes) (m : V) (ms : List V) (id : MessageId) (ids : List MessageId) :
    (∀ payload, serialize m = some payload → HandsOver [.sendMessage payload] (Session.send serialize m)) ∧
    (∀ payloads, ms.mapM serialize = some payloads → HandsOver [.sendBatch payloads] (Session.sendBatch serialize ms)) ∧
    HandsOver ((ms.filterMap serialize).map .sendMessage) (Session.sendAll serialize ms) ∧
    HandsOver [.ack id] (Session.ack id) ∧ HandsOver (ids.map .ack) (Session.ackAll ids) := by
  refine ⟨fun payload hp => ?_, fun payloads hp => ?_, ?_, ?_, ?_⟩
  · unfold Session.send
    rw [hp]
    exact hands_bind _ _ (hands_call _)
  · unfold Session.sendBatch
    rw [hp]
    exact hands_bind _ _ (hands_call _)
  · unfold Session.sendAll
    refine hands_bind _ _ ?_
    have := hands_all (ms.map fun m => match serialize m with
      | some payload => .ok (.sendMessage payload)
      | none => .err .serializationFailed)
    refine cast (congrArg (fun l => HandsOver l _) ?_) this
    clear this
    induction ms with
    | nil => rfl
    | cons x xs ih =>
      simp only [List.map_cons, List.filterMap_cons]
      cases serialize x with
      | none => simpa using ih
      | some y => simpa using ih
  · exact hands_bind _ _ (hands_call _)
  · unfold Session.ackAll
    refine hands_bind _ _ ?_
    have := hands_all (ids.map fun id => .ok (.ack id))
    refine cast (congrArg (fun l => HandsOver l _) ?_) this
    clear this
    induction ids with
    | nil => rfl
    | cons x xs ih => simpa using ih

theorem isSend_of {m : Send} {now : UInt64} {v : MessageCommand} (hv : m.toCommand now = .ok v) :
    IsSendCommand v m.producerId m.sequenceId := by
  rw [Send.toCommand_eq] at hv
  cases hv
  refine ⟨commandType_base .., Neutron.mkMsg .commandSend
    [(1, vU64 m.producerId), (2, vU64 m.sequenceId), (3, [.int (asI32 m.numberOfMessages)])], ?_, ?_, ?_⟩
  · unfold getMsg Send.asCommand baseCommand
    rw [getF_mk _ _ _ rfl]
    rfl
  · exact u64_of rfl rfl
  · exact u64_of rfl rfl

theorem carries_send {cfg : Sys.Cfg} {i : Nat} {name : String} {payload : Bytes} {v : MessageCommand}
    (h : Carries cfg i name (.sendMessage payload) v) : IsSendOf v i payload := by
  cases h with
  | send _ seq now v hv =>
    obtain ⟨_, md, h1, _⟩ := issued_command now ⟨UInt64.ofNat i, name, 0, seq⟩ (.sendMessage payload) (item := v) hv
    exact ⟨⟨seq, isSend_of hv⟩, md, h1⟩

theorem carries_batch {cfg : Sys.Cfg} {i : Nat} {name : String} {payloads : List Bytes} {v : MessageCommand}
    (h : Carries cfg i name (.sendBatch payloads) v) : IsBatchOf v i payloads := by
  cases h with
  | sendBatch _ seq now v hv =>
    obtain ⟨_, md, data, h1, _, h2⟩ := issued_command now ⟨UInt64.ofNat i, name, 0, seq⟩ (.sendBatch payloads) (item := v) hv
    exact ⟨⟨seq, isSend_of hv⟩, md, data, h1, h2⟩

theorem carries_ack {cfg : Sys.Cfg} {i : Nat} {name : String} {id : MessageId} {v : MessageCommand}
    (h : Carries cfg i name (.ack id) v) : IsAck v (UInt64.ofNat i) id := by
  cases h with
  | ack m req v hv =>
    unfold ackToCommand at hv
    simp only [List.head?_cons, Outcome.unwrap] at hv
    cases hv
    refine ⟨commandType_base .., Neutron.mkMsg .commandAck [(1, vU64 (UInt64.ofNat i)), (2, [.int 0]), (3, [.msg id]), (8, vU64 req)], ?_, ?_, ?_⟩
    · unfold getMsg baseCommand
      rw [getF_mk _ _ _ rfl]
      rfl
    · exact u64_of rfl rfl
    · rw [getF_mk _ _ _ rfl]; rfl

theorem _root_.Neutron.App.Reaches.imp {σ : Nat → App.State T} {P Q : MessageCommand → Prop} (h : Reaches σ P) (hpq : ∀ v, P v → Q v) : Reaches σ Q := by
  obtain ⟨m, b, v, h1, h2⟩ := h
  exact ⟨m, b, v, h1, hpq v h2⟩

/-- **C146.** A `send` of a message that can be serialised: a broker receives a `SEND` of that producer with that message. -/
theorem C146_send {cfg : World.Cfg T} {σ : Nat → App.State T} {acts : Nat → App.Act} (h : App.Forever cfg σ acts)
    (hp : KeepWorking cfg.sys (sysOf σ) (roundsOf cfg σ acts)) (hb : ∀ n, (sysOf σ n).nClients ≤ 2 ^ 64)
    (hfit : ∀ n, World.Fits (σ n).world) {i : Nat} (hs : Served cfg σ acts i) {k n : Nat} {j : Job} (hk : (σ n).jobs[k]? = some j)
    (hl : j.live = true) (hd : ∀ m, acts m ≠ .drop k) (hf : FairTo cfg σ acts k) {V : Type} {serialize : V → Option Bytes} {m : V}
    (hm : j.made = .call i (Session.send serialize m)) {payload : Bytes} (hser : serialize m = some payload) :
    Reaches σ fun v => IsSendOf v i payload :=
  (C146_call h hp hb hfit hs hk hl hd hf hm ((C146_library serialize m [] [] []).1 payload hser) (List.mem_singleton_self _) rfl).imp
    fun _ => carries_send

/-- **C146.** A `send_batch` of messages that can be serialised: a broker receives a `SEND` of that producer with that batch. -/
theorem C146_send_batch {cfg : World.Cfg T} {σ : Nat → App.State T} {acts : Nat → App.Act} (h : App.Forever cfg σ acts)
    (hp : KeepWorking cfg.sys (sysOf σ) (roundsOf cfg σ acts)) (hb : ∀ n, (sysOf σ n).nClients ≤ 2 ^ 64)
    (hfit : ∀ n, World.Fits (σ n).world) {i : Nat} (hs : Served cfg σ acts i) {k n : Nat} {j : Job} (hk : (σ n).jobs[k]? = some j)
    (hl : j.live = true) (hd : ∀ m, acts m ≠ .drop k) (hf : FairTo cfg σ acts k) {V : Type} {serialize : V → Option Bytes} {ms : List V}
    (hm : j.made = .call i (Session.sendBatch serialize ms)) {payloads : List Bytes} (hser : ms.mapM serialize = some payloads) :
    Reaches σ fun v => IsBatchOf v i payloads :=
  (C146_call h hp hb hfit hs hk hl hd hf hm (by
    unfold Session.sendBatch; rw [hser]; exact hands_bind _ _ (hands_call _)) (List.mem_singleton_self _) rfl).imp fun _ => carries_batch

/-- **C146.** A `send_all`: for every message that can be serialised, a broker receives a `SEND` of that producer with that message. -/
theorem C146_send_all {cfg : World.Cfg T} {σ : Nat → App.State T} {acts : Nat → App.Act} (h : App.Forever cfg σ acts)
    (hp : KeepWorking cfg.sys (sysOf σ) (roundsOf cfg σ acts)) (hb : ∀ n, (sysOf σ n).nClients ≤ 2 ^ 64)
    (hfit : ∀ n, World.Fits (σ n).world) {i : Nat} (hs : Served cfg σ acts i) {k n : Nat} {j : Job} (hk : (σ n).jobs[k]? = some j)
    (hl : j.live = true) (hd : ∀ m, acts m ≠ .drop k) (hf : FairTo cfg σ acts k) {V : Type} {serialize : V → Option Bytes} {ms : List V}
    (hm : j.made = .call i (Session.sendAll serialize ms)) {m : V} (hmem : m ∈ ms) {payload : Bytes} (hser : serialize m = some payload) :
    Reaches σ fun v => IsSendOf v i payload :=
  (C146_call h hp hb hfit hs hk hl hd hf hm (C146_library serialize m ms [] []).2.2.1
    (List.mem_map_of_mem (List.mem_filterMap.mpr ⟨m, hmem, hser⟩)) rfl).imp fun _ => carries_send

/-- **C146.** An `ack`: a broker receives an `ACK` of that consumer for that message. -/
theorem C146_ack {cfg : World.Cfg T} {σ : Nat → App.State T} {acts : Nat → App.Act} (h : App.Forever cfg σ acts)
    (hp : KeepWorking cfg.sys (sysOf σ) (roundsOf cfg σ acts)) (hb : ∀ n, (sysOf σ n).nClients ≤ 2 ^ 64)
    (hfit : ∀ n, World.Fits (σ n).world) {i : Nat} (hs : Served cfg σ acts i) {k n : Nat} {j : Job} (hk : (σ n).jobs[k]? = some j)
    (hl : j.live = true) (hd : ∀ m, acts m ≠ .drop k) (hf : FairTo cfg σ acts k) {id : MessageId}
    (hm : j.made = .call i (Session.ack id)) : Reaches σ fun v => IsAck v (UInt64.ofNat i) id :=
  (C146_call h hp hb hfit hs hk hl hd hf hm (hands_bind _ _ (hands_call _)) (List.mem_singleton_self _) rfl).imp fun _ => carries_ack

/-- **C146.** An `ack_all`: for every one of the messages, a broker receives an `ACK` of that consumer for it. -/
theorem C146_ack_all {cfg : World.Cfg T} {σ : Nat → App.State T} {acts : Nat → App.Act} (h : App.Forever cfg σ acts)
    (hp : KeepWorking cfg.sys (sysOf σ) (roundsOf cfg σ acts)) (hb : ∀ n, (sysOf σ n).nClients ≤ 2 ^ 64)
    (hfit : ∀ n, World.Fits (σ n).world) {i : Nat} (hs : Served cfg σ acts i) {k n : Nat} {j : Job} (hk : (σ n).jobs[k]? = some j)
    (hl : j.live = true) (hd : ∀ m, acts m ≠ .drop k) (hf : FairTo cfg σ acts k) {ids : List MessageId}
    (hm : j.made = .call i (Session.ackAll ids)) {id : MessageId} (hmem : id ∈ ids) : Reaches σ fun v => IsAck v (UInt64.ofNat i) id :=
  (C146_call h hp hb hfit hs hk hl hd hf hm (C146_library (fun x : Bytes => some x) [] [] id ids).2.2.2.2 (List.mem_map_of_mem hmem) rfl).imp
    fun _ => carries_ack

end Neutron.Props
