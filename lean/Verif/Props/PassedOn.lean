import Verif.Props.Supply
import Verif.Props.Relay
import Verif.Props.AppAsked
import Verif.Props.Carried
import Verif.Proof.AutoAck
import Verif.Props.AtLeastOnce
import Verif.Props.Builder
import Verif.Spec.Relays

/-!
# C149: everything sent is received

`sentBy`, `PassesOn` and `SendsOnly` are in `Spec/Relays.lean`.
-/

namespace Neutron.Props

open Neutron Neutron.App Neutron.World Neutron.Sys Proto

variable {S T : Type}

/-- A `SEND` with one message, of producer `pid`. -/
def IsSingle (v : MessageCommand) (ok : Bytes → Prop) : Prop := ∃ now n p s pl, v = (Send.single n p s pl).asCommand now ∧ ok pl

theorem only_handed {cfg : World.Cfg S} {acts : List App.Act} {log : List World.Act} {a : App.State S} (h : App.Run cfg acts log a) {j : Job}
    (hj : j ∈ a.jobs) {i : Nat} {p : Prog Unit} (hm : j.made = .call i p) {ok : Bytes → Prop}
    (hp : (∃ (V : Type) (serialize : V → Option Bytes) (x : V), p = Session.send serialize x ∧ ∀ payload, serialize x = some payload → ok payload) ∨
      ∃ (V : Type) (serialize : V → Option Bytes) (xs : List V), p = Session.sendAll serialize xs ∧
        ∀ x ∈ xs, ∀ payload, serialize x = some payload → ok payload) {c : Call} {r : Outcome Nat} (hh : .handed c r ∈ j.events) :
    (∀ ps, c ≠ .sendBatch ps) ∧ ∀ payload, c = .sendMessage payload → ok payload := by
  have hs := events_steps h hj hm
  have hc := calls_mem hh
  rcases hp with ⟨V, serialize, x, rfl, hok⟩ | ⟨V, serialize, xs, rfl, hok⟩
  · rcases (C107_only_serialised x []).1 _ hs with h0 | ⟨q, h1, h2⟩
    · rw [h0] at hc; cases hc
    · rw [h2, List.mem_singleton] at hc
      subst hc
      exact ⟨fun ps he => (by cases he), fun payload he => by cases he; exact hok q h1⟩
  · rcases xs with _ | ⟨y, ys⟩
    · have h0 : Session.sendAll serialize [] = pure () := rfl
      rw [h0, steps_pure] at hs
      rw [hs] at hc
      cases hc
    have := ((C107_only_serialised (serialize := serialize) y (y :: ys)).2.2 _ hs).subset hc
    obtain ⟨q, hq, rfl⟩ := List.mem_map.mp this
    obtain ⟨x, hx, hxq⟩ := List.mem_filterMap.mp hq
    exact ⟨fun ps he => (by cases he), fun payload he => by cases he; exact hok x hx q hxq⟩

theorem send_is_single {cfg : World.Cfg S} {σ : Nat → App.State S} {acts : Nat → App.Act} (h : App.Forever cfg σ acts)
    (hb : ∀ n, (sysOf σ n).nClients ≤ 2 ^ 64) (hfit : ∀ n, World.Fits (σ n).world) {i : Nat} {ok : Bytes → Prop} (ho : SendsOnly σ i ok)
    (hi : i < 2 ^ 64) {n : Nat} {b : BrokerAddress} {v : MessageCommand} (hr : Received ((σ n).world.tx b).sent v) {s : UInt64}
    (hv : IsSendCommand v (UInt64.ofNat i) s) : IsSingle v ok := by
  obtain ⟨_, _, hrun⟩ := run_at h n
  obtain ⟨j, i', p, c, t, m, now, hj, hm, hh, hc, hs, hk⟩ := C121_sends hrun (hfit n) hr hv.1
  have hii : i' = i := by
    obtain ⟨_, m1, a1, a2, _⟩ := hv
    obtain ⟨_, m2, b1, b2, _⟩ := hs
    rw [a1] at b1
    cases b1
    have he := congrArg UInt64.toNat (a2.symm.trans b2)
    have hlt : i' < 2 ^ 64 := by
      have := ((seen hrun _ hj).client i' (within hrun j hj i' p hm).1).1
      exact Nat.lt_of_lt_of_le this (hb n)
    rw [UInt64.toNat_ofNat', UInt64.toNat_ofNat', Nat.mod_eq_of_lt hi, Nat.mod_eq_of_lt hlt] at he
    exact he.symm
  subst hii
  obtain ⟨o1, o2⟩ := only_handed hrun hj hm (ho n j p hj hm) hh
  rw [Send.toCommand_eq] at hc
  cases hc
  rcases hk with ⟨payload, rfl, he⟩ | ⟨ps, rfl, _⟩
  · exact ⟨now, _, _, _, payload, by rw [← he], o2 payload rfl⟩
  · exact absurd rfl (o1 ps)

open Classical in
theorem sentBy_cons (pid : UInt64) (v : MessageCommand) (l : List MessageCommand) : sentBy pid (v :: l) = sentBy pid [v] ++ sentBy pid l := by
  unfold sentBy
  rw [show v :: l = [v] ++ l from rfl, List.filterMap_append]

open Classical in
theorem sentBy_send {pid s : UInt64} {v : MessageCommand} {q : Payload} (h : IsSendCommand v pid s) (hq : v.payload = some q) :
    sentBy pid [v] = [q.data] := by
  unfold sentBy
  rw [List.filterMap_cons, if_pos ⟨s, h⟩, hq]
  rfl

open Classical in
theorem sentBy_other {pid : UInt64} {v : MessageCommand} (h : ∀ s, ¬ IsSendCommand v pid s) : sentBy pid [v] = [] := by
  unfold sentBy
  rw [List.filterMap_cons, if_neg (fun ⟨s, hs⟩ => h s hs)]
  rfl

/-- What a consumer makes of what a broker relays. -/
theorem relayed_singles {decode : Bytes → Option T} {pid cid : UInt64} {ins outs : List MessageCommand} (h : Relayed true pid cid ins outs)
    (hs : ∀ v ∈ ins, ∀ s, IsSendCommand v pid s → IsSingle v fun p => (decode p).isSome) :
    (∀ x ∈ Sys.addressedTo cid (messagesOf outs), Consumer.isSingle x = true ∧ Consumer.decodable decode x) ∧
    valuesOf ((Sys.addressedTo cid (messagesOf outs)).flatMap (Consumer.yields decode)) = ((sentBy pid ins).filterMap decode).map .ok ∧
    ((sentBy pid ins).filterMap decode).length = (sentBy pid ins).length := by
  induction h with
  | done => exact ⟨(fun x hx => by cases hx), rfl, rfl⟩
  | @relay x y s mid ins outs hx hr hy _ ih =>
    obtain ⟨k1, k2, k3⟩ := ih fun v hv => hs v (List.mem_cons_of_mem _ hv)
    obtain ⟨now, n, p, sq, pl, rfl, hok⟩ := hs x (by simp) s hx
    obtain ⟨q, hq, hqd, hn⟩ := numMessages_relay now _ y hr
    obtain ⟨t, ht⟩ := Option.isSome_iff_exists.mp hok
    have hmsg : Sys.addressedTo cid (messagesOf [y]) = [.single cid mid pl] := by
      have : Inbound.ofCommand y = .ok (.message (.single cid mid pl)) := by
        rw [message_of y cid mid hy q hq, hn, if_neg (by simp [Send.numberOfMessages, asI32, signed32]), hqd]
        rfl
      simp [messagesOf, this, Sys.addressedTo, Message.consumerId]
    have hsent : sentBy pid ((Send.single n p sq pl).asCommand now :: ins) = pl :: sentBy pid ins := by
      rw [sentBy_cons, sentBy_send hx rfl]
      rfl
    rw [addressed_cons, hmsg, hsent]
    refine ⟨?_, ?_, ?_⟩
    · intro x hx
      rcases List.mem_append.mp hx with hx | hx
      · rw [List.mem_singleton] at hx
        subst hx
        exact ⟨rfl, hok⟩
      · exact k1 x hx
    · rw [List.flatMap_append, List.flatMap_singleton, List.filterMap_cons, ht]
      simp only [List.map_cons]
      rw [← k2]
      have app : ∀ a c : List (Outcome (Consumer.Received T)), valuesOf (a ++ c) = valuesOf a ++ valuesOf c := fun _ _ => List.map_append
      rw [app, values_single decode ht]
      rfl
    · rw [List.filterMap_cons, ht]
      simp [k3]
  | @unrelayed x ins outs hx _ ih =>
    obtain ⟨k1, k2, k3⟩ := ih fun v hv => hs v (List.mem_cons_of_mem _ hv)
    rw [sentBy_cons, sentBy_other (hx rfl), List.nil_append]
    exact ⟨k1, k2, k3⟩
  | @other y ins outs hy _ ih =>
    rw [addressed_cons, not_for hy, List.nil_append]
    exact ih hs

theorem frames_compare {bytes : Bytes} {fs gs : List (MessageCommand × Bytes)} (hf : BeginsWith bytes fs) (hg : BeginsWith bytes gs) :
    fs.map (·.1) <+: gs.map (·.1) ∨ gs.map (·.1) <+: fs.map (·.1) := by
  rcases List.prefix_or_prefix_of_prefix hf.2 hg.2 with h | h
  · exact .inl (frames_front hf.1 hg.1 h)
  · exact .inr (frames_front hg.1 hf.1 h)

theorem begins_to {cfg : World.Cfg S} {σ : Nat → App.State S} {acts : Nat → App.Act} (h : App.Forever cfg σ acts) {n m : Nat} (hnm : n ≤ m)
    {b : BrokerAddress} {fs : List (MessageCommand × Bytes)} (hf : BeginsWith ((σ n).world.tx b).sent fs) :
    BeginsWith ((σ m).world.tx b).sent fs := by
  induction m, hnm using Nat.le_induction with
  | base => exact hf
  | succ m _ ih =>
    obtain ⟨as, log, hrun⟩ := run_at h m
    exact ⟨ih.1, ih.2.trans (sent_mono (run_world hrun) (run_world (.snoc hrun (h.steps m))) b)⟩

theorem sentBy_front {pid : UInt64} {l l' : List MessageCommand} (h : l <+: l') : sentBy pid l <+: sentBy pid l' := h.filterMap _

theorem values_length {l : List (Outcome (Consumer.Received T))} : (valuesOf l).length = l.length := List.length_map _

section

variable {cfgP : World.Cfg S} {σP : Nat → App.State S} {actsP : Nat → App.Act} {cfg : World.Cfg T} {σ : Nat → App.State T} {acts : Nat → App.Act}

/-- What has been read, given what the producer may have sent. -/
theorem relayed_read (hP : App.Forever cfgP σP actsP) (hbP : ∀ n, (sysOf σP n).nClients ≤ 2 ^ 64) (hfitP : ∀ n, World.Fits (σP n).world)
    {i : Nat} (hi : i < 2 ^ 64) {decode : Bytes → Option T} (ho : SendsOnly σP i fun p => (decode p).isSome) {bP b : BrokerAddress} {c n m : Nat}
    {fs : List (MessageCommand × Bytes)} (hf : BeginsWith ((σP m).world.tx bP).sent fs)
    (hr : Relayed true (UInt64.ofNat i) (UInt64.ofNat c) (fs.map (·.1)) (commandsOf ((σ n).world.rx b).out)) :
    (∀ x ∈ readFor (σ n).world c b, Consumer.isSingle x = true ∧ Consumer.decodable decode x) ∧
    valuesOf ((readFor (σ n).world c b).flatMap (Consumer.yields decode)) = ((sentBy (UInt64.ofNat i) (fs.map (·.1))).filterMap decode).map .ok ∧
    ((sentBy (UInt64.ofNat i) (fs.map (·.1))).filterMap decode).length = (sentBy (UInt64.ofNat i) (fs.map (·.1))).length :=
  relayed_singles hr fun v hv _ hs => send_is_single hP hbP hfitP ho hi ⟨fs, hf, hv⟩ hs

/-- Sends are decodable. -/
theorem sent_decodable (hP : App.Forever cfgP σP actsP) (hbP : ∀ n, (sysOf σP n).nClients ≤ 2 ^ 64) (hfitP : ∀ n, World.Fits (σP n).world)
    {i : Nat} (hi : i < 2 ^ 64) {decode : Bytes → Option T} (ho : SendsOnly σP i fun p => (decode p).isSome) {bP : BrokerAddress} {m : Nat}
    {fs : List (MessageCommand × Bytes)} (hf : BeginsWith ((σP m).world.tx bP).sent fs) :
    ((sentBy (UInt64.ofNat i) (fs.map (·.1))).filterMap decode).length = (sentBy (UInt64.ofNat i) (fs.map (·.1))).length := by
  have hall : ∀ p ∈ sentBy (UInt64.ofNat i) (fs.map (·.1)), (decode p).isSome := by
    intro p hp
    obtain ⟨v, hv, he⟩ := List.mem_filterMap.mp hp
    split at he
    · rename_i hs
      obtain ⟨s, hs⟩ := hs
      obtain ⟨now, n, q, sq, pl, rfl, hok⟩ := send_is_single hP hbP hfitP ho hi ⟨fs, hf, hv⟩ hs
      cases he
      exact hok
    · cases he
  generalize sentBy (UInt64.ofNat i) (fs.map (·.1)) = l at hall
  induction l with
  | nil => rfl
  | cons p l ih =>
    obtain ⟨t, ht⟩ := Option.isSome_iff_exists.mp (hall p (by simp))
    rw [List.filterMap_cons, ht]
    simp only [List.length_cons]
    rw [ih fun q hq => hall q (List.mem_cons_of_mem _ hq)]

/-- **C149.**  Nothing is altered, invented, repeated, reordered or skipped: what the consumer's calls have handed out is, at any time, the values
of the first messages the producer's broker has received from it, in order. -/
theorem C149_in_order (hP : App.Forever cfgP σP actsP) (hbP : ∀ n, (sysOf σP n).nClients ≤ 2 ^ 64) (hfitP : ∀ n, World.Fits (σP n).world)
    {i : Nat} (hi : i < 2 ^ 64) (ho : SendsOnly σP i fun p => (cfg.app.decode p).isSome) {bP b : BrokerAddress}
    (h : App.Forever cfg σ acts) (hl : Sys.KeepsLooping (sysOf σ)) (hb : ∀ n, (sysOf σ n).nClients ≤ 2 ^ 64)
    (hfit : ∀ n, World.Fits (σ n).world) (hof : ∀ n, App.Offers (σ n)) (hnb : NoBatches acts) (hd : DeliverOnlySubscribed σ acts)
    (hask : KeepsAsking σ acts) {n0 : Nat} (hme : cfg.me < (sysOf σ n0).nClients) {v : MessageCommand}
    (hsub : Received ((σ n0).world.tx b).sent v) (hv : IsSubscribe v (UInt64.ofNat cfg.me)) (hpass : PassesOn σP bP i σ b cfg.me) (n : Nat) :
    ∃ m fs, BeginsWith ((σP m).world.tx bP).sent fs ∧
      valuesOf (σ n).world.app.handedOut <+: ((sentBy (UInt64.ofNat i) (fs.map (·.1))).filterMap cfg.app.decode).map .ok := by
  obtain ⟨n1, _, _, _, hpref⟩ := supplied_base h hl hb hfit hof hnb hd hask hme hsub hv
  obtain ⟨m, fs, hf, hr⟩ := hpass.faithful (max n n1)
  refine ⟨m, fs, hf, ?_⟩
  rw [← (relayed_read hP hbP hfitP hi ho hf hr).2.1]
  have hgrow := handedOut_grow (consumer_forever h (never_stopped h hl)) (Nat.le_max_left n n1)
  exact (hgrow.trans (hpref _ (Nat.le_max_right n n1))).map _

/-- **C149.**  And nothing is missing.  If the broker passes on what it receives as the consumer's permits allow, the consumer's application keeps
receiving (as for C148) and nothing is neglected, then whatever the producer's broker has received from the producer the consumer's
application is handed, all of it from the first message on, in order. -/
theorem C149_all (hP : App.Forever cfgP σP actsP) (hbP : ∀ n, (sysOf σP n).nClients ≤ 2 ^ 64) (hfitP : ∀ n, World.Fits (σP n).world)
    {i : Nat} (hi : i < 2 ^ 64) (ho : SendsOnly σP i fun p => (cfg.app.decode p).isSome) {bP b : BrokerAddress}
    (h : App.Forever cfg σ acts) (hpm : cfg.app.permits = 250) (hp : Sys.KeepWorking cfg.sys (sysOf σ) (roundsOf cfg σ acts))
    (hb : ∀ n, (sysOf σ n).nClients ≤ 2 ^ 64) (hfit : ∀ n, World.Fits (σ n).world) (hof : ∀ n, App.Offers (σ n))
    (hs : Served cfg σ acts cfg.me) (hA : App.Attended cfg σ acts) (hnb : NoBatches acts) (hd : DeliverOnlySubscribed σ acts)
    (hlive : ∀ n, (σ n).world.app.live ≤ 251) (hask : KeepsAsking σ acts)
    {n0 : Nat} {j : Job} (hj : j ∈ (σ n0).jobs) {builder : ConsumerBuilder Unit} (hm : j.made = .consumer builder)
    (hc : j.client = some cfg.me) (he : j.ended = some (.ok ()))
    (hfr : Sys.Fair cfg.sys (sysOf σ) (roundsOf cfg σ acts) (Sys.Act.servesReads b)) {v : MessageCommand}
    (hsub : Received ((σ n0).world.tx b).sent v) (hv : IsSubscribe v (UInt64.ofNat cfg.me)) (hpass : PassesOn σP bP i σ b cfg.me)
    {m : Nat} {fs : List (MessageCommand × Bytes)} (hf : BeginsWith ((σP m).world.tx bP).sent fs) :
    ∃ n, ((sentBy (UInt64.ofNat i) (fs.map (·.1))).filterMap cfg.app.decode).map .ok <+: valuesOf (σ n).world.app.handedOut := by
  obtain ⟨n, hlen, hpre⟩ := C148_supplied h hpm hp hb hfit hof hs hA hnb hd hlive hask hj hm hc he hfr hsub hv (fun n => by
    obtain ⟨m, fs, hf, hr⟩ := hpass.faithful n
    exact (relayed_read hP hbP hfitP hi ho hf hr).1) (hpass.delivers m fs hf)
  refine ⟨n, ?_⟩
  obtain ⟨m', fs', hf', hr⟩ := hpass.faithful n
  have hval := hpre.map (fun o : Outcome (Consumer.Received T) => match o with
    | .ok r => Outcome.ok r.payload
    | .err e => .err e
    | .panic => .panic)
  change valuesOf _ <+: valuesOf _ at hval
  rw [(relayed_read hP hbP hfitP hi ho hf' hr).2.1] at hval
  have hd1 := sent_decodable hP hbP hfitP hi ho hf
  have hd2 := sent_decodable hP hbP hfitP hi ho hf'
  have hle : (((sentBy (UInt64.ofNat i) (fs.map (·.1))).filterMap cfg.app.decode).map Outcome.ok).length ≤ (valuesOf (σ n).world.app.handedOut).length := by
    rw [List.length_map, hd1, values_length]
    exact hlen
  rcases frames_compare (begins_to hP (Nat.le_max_left m m') hf) (begins_to hP (Nat.le_max_right m m') hf') with hff | hff
  · exact List.prefix_of_prefix_length_le (((sentBy_front hff).filterMap _).map _) hval hle
  · exact List.prefix_of_prefix_length_le (List.prefix_refl _) (hval.trans (((sentBy_front hff).filterMap _).map _)) hle

/-- What reaches a broker from the producer reaches the consumer's application. -/
theorem received_passed (hP : App.Forever cfgP σP actsP) (hbP : ∀ n, (sysOf σP n).nClients ≤ 2 ^ 64) (hfitP : ∀ n, World.Fits (σP n).world)
    (hofP : ∀ n, App.Offers (σP n)) {i : Nat} {bP : BrokerAddress} {nP : Nat} {r : MessageCommand}
    (hreg : Received ((σP nP).world.tx bP).sent r) (hr : NamesClient r (UInt64.ofNat i)) {payload : Bytes}
    (hreach : Reaches σP fun v => IsSendOf v i payload) {t : T} {decode : Bytes → Option T} (ht : decode payload = some t) {L : Nat → List (Outcome T)}
    (hall : ∀ m fs, BeginsWith ((σP m).world.tx bP).sent fs → ∃ n, ((sentBy (UInt64.ofNat i) (fs.map (·.1))).filterMap decode).map .ok <+: L n) :
    ∃ n, .ok t ∈ L n := by
  obtain ⟨m, b', x, hx, ⟨s, hs⟩, md, hpl⟩ := hreach
  have h1 := received_to hP (Nat.le_max_left nP m) hreg
  have h2 := received_to hP (Nat.le_max_right nP m) hx
  obtain ⟨as, log, hrun⟩ := run_at hP (max nP m)
  have hbb : bP = b' := by
    refine C135_one_connection hrun (hofP _) (hfitP _) (hbP _) h1 h2 hr (p := UInt64.ofNat i) ?_
    obtain ⟨s1, mm, s2, s3, _⟩ := hs
    exact .inr (.inr (.inr (.inl ⟨s1, mm, s2, s3⟩)))
  subst hbb
  obtain ⟨fs, hf, hmem⟩ := h2
  obtain ⟨n, hn⟩ := hall _ fs hf
  refine ⟨n, hn.subset ?_⟩
  rw [List.mem_map]
  refine ⟨t, List.mem_filterMap.mpr ⟨payload, List.mem_filterMap.mpr ⟨x, hmem, ?_⟩, ht⟩, rfl⟩
  rw [if_pos ⟨s, hs⟩, hpl]
  rfl

/-- **C149.**  What is sent is received: a `send` is called on a producer whose commands (for example its `PRODUCER`) the broker behind `bP`
gets, with a message that can be serialised, as `payload`; its future is not dropped; nothing is neglected.  Then the consumer's application is
handed the value `payload` decodes to. -/
theorem C149_send (hP : App.Forever cfgP σP actsP) (hbP : ∀ n, (sysOf σP n).nClients ≤ 2 ^ 64) (hfitP : ∀ n, World.Fits (σP n).world)
    {i : Nat} (hi : i < 2 ^ 64) (ho : SendsOnly σP i fun p => (cfg.app.decode p).isSome) {bP b : BrokerAddress}
    (hofP : ∀ n, App.Offers (σP n)) (hwP : Sys.KeepWorking cfgP.sys (sysOf σP) (roundsOf cfgP σP actsP)) (hsP : Served cfgP σP actsP i)
    {nP : Nat} {r : MessageCommand} (hreg : Received ((σP nP).world.tx bP).sent r) (hr : NamesClient r (UInt64.ofNat i))
    (h : App.Forever cfg σ acts) (hpm : cfg.app.permits = 250) (hp : Sys.KeepWorking cfg.sys (sysOf σ) (roundsOf cfg σ acts))
    (hb : ∀ n, (sysOf σ n).nClients ≤ 2 ^ 64) (hfit : ∀ n, World.Fits (σ n).world) (hof : ∀ n, App.Offers (σ n))
    (hs : Served cfg σ acts cfg.me) (hA : App.Attended cfg σ acts) (hnb : NoBatches acts) (hd : DeliverOnlySubscribed σ acts)
    (hlive : ∀ n, (σ n).world.app.live ≤ 251) (hask : KeepsAsking σ acts)
    {n0 : Nat} {j : Job} (hj : j ∈ (σ n0).jobs) {builder : ConsumerBuilder Unit} (hm : j.made = .consumer builder)
    (hc : j.client = some cfg.me) (he : j.ended = some (.ok ()))
    (hfr : Sys.Fair cfg.sys (sysOf σ) (roundsOf cfg σ acts) (Sys.Act.servesReads b)) {v : MessageCommand}
    (hsub : Received ((σ n0).world.tx b).sent v) (hv : IsSubscribe v (UInt64.ofNat cfg.me)) (hpass : PassesOn σP bP i σ b cfg.me)
    -- the call
    {k n : Nat} {call : Job} (hk : (σP n).jobs[k]? = some call) (hcl : call.live = true) (hcd : ∀ m, actsP m ≠ .drop k) (hcf : FairTo cfgP σP actsP k)
    {V : Type} {serialize : V → Option Bytes} {x : V} (hcm : call.made = .call i (Session.send serialize x)) {payload : Bytes}
    (hser : serialize x = some payload) {t : T} (ht : cfg.app.decode payload = some t) :
    ∃ n', .ok t ∈ valuesOf (σ n').world.app.handedOut :=
  received_passed hP hbP hfitP hofP hreg hr (C146_send hP hwP hbP hfitP hsP hk hcl hcd hcf hcm hser) ht
    fun _ _ hf => C149_all hP hbP hfitP hi ho h hpm hp hb hfit hof hs hA hnb hd hlive hask hj hm hc he hfr hsub hv hpass hf

/-- **C149.**  The same for every message of a `send_all`. -/
theorem C149_send_all (hP : App.Forever cfgP σP actsP) (hbP : ∀ n, (sysOf σP n).nClients ≤ 2 ^ 64) (hfitP : ∀ n, World.Fits (σP n).world)
    {i : Nat} (hi : i < 2 ^ 64) (ho : SendsOnly σP i fun p => (cfg.app.decode p).isSome) {bP b : BrokerAddress}
    (hofP : ∀ n, App.Offers (σP n)) (hwP : Sys.KeepWorking cfgP.sys (sysOf σP) (roundsOf cfgP σP actsP)) (hsP : Served cfgP σP actsP i)
    {nP : Nat} {r : MessageCommand} (hreg : Received ((σP nP).world.tx bP).sent r) (hr : NamesClient r (UInt64.ofNat i))
    (h : App.Forever cfg σ acts) (hpm : cfg.app.permits = 250) (hp : Sys.KeepWorking cfg.sys (sysOf σ) (roundsOf cfg σ acts))
    (hb : ∀ n, (sysOf σ n).nClients ≤ 2 ^ 64) (hfit : ∀ n, World.Fits (σ n).world) (hof : ∀ n, App.Offers (σ n))
    (hs : Served cfg σ acts cfg.me) (hA : App.Attended cfg σ acts) (hnb : NoBatches acts) (hd : DeliverOnlySubscribed σ acts)
    (hlive : ∀ n, (σ n).world.app.live ≤ 251) (hask : KeepsAsking σ acts)
    {n0 : Nat} {j : Job} (hj : j ∈ (σ n0).jobs) {builder : ConsumerBuilder Unit} (hm : j.made = .consumer builder)
    (hc : j.client = some cfg.me) (he : j.ended = some (.ok ()))
    (hfr : Sys.Fair cfg.sys (sysOf σ) (roundsOf cfg σ acts) (Sys.Act.servesReads b)) {v : MessageCommand}
    (hsub : Received ((σ n0).world.tx b).sent v) (hv : IsSubscribe v (UInt64.ofNat cfg.me)) (hpass : PassesOn σP bP i σ b cfg.me)
    -- the call
    {k n : Nat} {call : Job} (hk : (σP n).jobs[k]? = some call) (hcl : call.live = true) (hcd : ∀ m, actsP m ≠ .drop k) (hcf : FairTo cfgP σP actsP k)
    {V : Type} {serialize : V → Option Bytes} {xs : List V} (hcm : call.made = .call i (Session.sendAll serialize xs)) {x : V} (hx : x ∈ xs)
    {payload : Bytes} (hser : serialize x = some payload) {t : T} (ht : cfg.app.decode payload = some t) :
    ∃ n', .ok t ∈ valuesOf (σ n').world.app.handedOut :=
  received_passed hP hbP hfitP hofP hreg hr (C146_send_all hP hwP hbP hfitP hsP hk hcl hcd hcf hcm hx hser) ht
    fun _ _ hf => C149_all hP hbP hfitP hi ho h hpm hp hb hfit hof hs hA hnb hd hlive hask hj hm hc he hfr hsub hv hpass hf

end

end Neutron.Props
