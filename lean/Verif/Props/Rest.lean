import Verif.Spec.Rest
import Verif.Spec.Traces
import Verif.Proof.SysPlaced
import Verif.Props.Lifetime
import Verif.Props.Shutdown

/-!
# When the engine works, rests and ends: C101, C102, C103, C104
-/

namespace Neutron.Props

open Neutron Neutron.Sys Neutron.Trace

/-! ## Bookkeeping -/

theorem sum_update {α : Type} [DecidableEq α] {l : List α} {f g : α → Nat} {a : α} (hn : l.Nodup) (ha : a ∈ l)
    (h : ∀ x, x ∈ l → x ≠ a → g x = f x) : (l.map g).sum + f a = (l.map f).sum + g a := by
  induction l with
  | nil => cases ha
  | cons y l ih =>
    simp only [List.map_cons, List.sum_cons]
    rw [List.nodup_cons] at hn
    by_cases hy : y = a
    · subst hy
      have : l.map g = l.map f := List.map_congr_left fun x hx => h x (by simp [hx]) (by rintro rfl; exact hn.1 hx)
      rw [this]; omega
    · have := ih hn.2 (by simpa [Ne.symm hy] using ha) fun x hx => h x (by simp [hx])
      rw [h y (by simp) hy]; omega

/-- Commands waiting in the clients' channels. -/
def qsum (s : State) : Nat := ((List.range s.nClients).map fun i => (s.clients i).queue.length).sum

/-- Events waiting in the connections' channels. -/
def osum (s : State) : Nat := (s.addrs.map fun b => (s.conns b).outbox.length).sum

/-- How many more steps the mode allows by itself. -/
def weight : Mode → Nat
  | .starting => 2
  | .idle => 1
  | .awaitConnect .. => 2
  | .stopped => 0

/-- How many more steps the engine can make with what it has. -/
def backlog (s : State) : Nat := 2 * qsum s + osum s + s.regQueue.length + weight s.mode

theorem qsum_congr {s s' : State} (hn : s'.nClients = s.nClients) (h : ∀ i, i < s.nClients → (s'.clients i).queue = (s.clients i).queue) :
    qsum s' = qsum s := by
  unfold qsum
  rw [hn]
  exact congrArg List.sum (List.map_congr_left fun i hi => by rw [h i (List.mem_range.mp hi)])

theorem qsum_update {s s' : State} {i : Nat} (hi : i < s.nClients) (hn : s'.nClients = s.nClients)
    (h : ∀ j, j ≠ i → (s'.clients j).queue = (s.clients j).queue) :
    qsum s' + (s.clients i).queue.length = qsum s + (s'.clients i).queue.length := by
  unfold qsum
  rw [hn]
  exact sum_update (f := fun i => (s.clients i).queue.length) (g := fun i => (s'.clients i).queue.length) List.nodup_range
    (List.mem_range.mpr hi) fun x _ hx => by simp only [h x hx]

theorem osum_congr {s s' : State} (hn : s'.addrs = s.addrs) (h : ∀ b, (s'.conns b).outbox = (s.conns b).outbox) : osum s' = osum s := by
  unfold osum
  rw [hn]
  exact congrArg List.sum (List.map_congr_left fun b _ => by rw [h b])

theorem osum_update {s s' : State} {b : BrokerAddress} (hd : s.addrs.Nodup) (hb : b ∈ s.addrs) (hn : s'.addrs = s.addrs)
    (h : ∀ x, x ≠ b → (s'.conns x).outbox = (s.conns x).outbox) :
    osum s' + (s.conns b).outbox.length = osum s + (s'.conns b).outbox.length := by
  unfold osum
  rw [hn]
  exact sum_update (f := fun b => (s.conns b).outbox.length) (g := fun b => (s'.conns b).outbox.length) hd hb
    fun x _ hx => by simp only [h x hx]

theorem osum_dialed {s : State} {b : BrokerAddress} (hb : b ∉ s.addrs) : osum (dialed s b) = osum s := by
  unfold osum dialed
  simp only [List.map_append, List.sum_append, setConn_conns, List.map_cons, List.map_nil]
  rw [List.map_congr_left (g := fun x => (s.conns x).outbox.length) fun x hx => by rw [if_neg (by rintro rfl; exact hb hx)]]
  simp [freshConn]

/-- What is waiting is the same. -/
structure SameWork (s s' : State) : Prop where
  q : qsum s' = qsum s
  o : osum s' = osum s
  r : s'.regQueue = s.regQueue

theorem SameWork.prep {cfg : Cfg} {s s3 : State} {i : Nat} {c c2 : Connect} {b : BrokerAddress} (hp : Prep cfg s i c c2 b s3) :
    SameWork s s3 := by
  cases hp with
  | intro s2 hd hb =>
    have h2 : SameWork s s2 := by
      rcases hd with rfl | ⟨hm, rfl⟩
      · exact ⟨rfl, rfl, rfl⟩
      · exact ⟨rfl, osum_dialed hm, rfl⟩
    split
    · refine ⟨(qsum_congr (by simp) fun j _ => ?_).trans h2.q, (osum_congr (by simp) (by simp)).trans h2.o, by simpa using h2.r⟩
      simp only [moveClient]; split <;> rfl
    · exact h2

theorem takeCmd_q {s : State} {i : Nat} {cmd : ClientCmd} {q : List ClientCmd} (hi : i < s.nClients)
    (hq : (s.clients i).queue = cmd :: q) : qsum (takeCmd s i cmd q) + 1 = qsum s := by
  have := qsum_update (s := s) (s' := takeCmd s i cmd q) hi (by simp) (fun j hj => by rw [takeCmd_clients, if_neg hj])
  rw [takeCmd_clients, if_pos rfl, hq] at this
  simp only [List.length_cons] at this
  omega

theorem takeEvent_o {s : State} {b : BrokerAddress} {e : Event} {q : List Event} (hd : s.addrs.Nodup) (hb : b ∈ s.addrs)
    (hq : (s.conns b).outbox = e :: q) : osum (takeEvent s b e q) + 1 = osum s := by
  have := osum_update (s := s) (s' := takeEvent s b e q) hd hb (by simp) (fun j hj => by simp [takeEvent, setConn_conns, hj])
  have hx : ((takeEvent s b e q).conns b).outbox = q := by simp [takeEvent, setConn_conns]
  rw [hx, hq] at this
  simp only [List.length_cons] at this
  omega

theorem backlog_stop {s : State} : backlog (stop s) = 2 * qsum s + osum s + s.regQueue.length := by
  have h1 : qsum (stop s) = qsum s := rfl
  have h2 : osum (stop s) = osum s := rfl
  unfold backlog
  rw [h1, h2]
  simp [stop, weight]

theorem managerSend_same (s : State) (e : Event) (b : BrokerAddress) (v : Bool) : SameWork s (managerSend s e b v) := by
  refine ⟨qsum_congr (by simp) fun j _ => ?_, osum_congr (by simp) (by simp), by simp⟩
  unfold managerSend
  split
  · rfl
  · simp only; split <;> rfl

theorem pushed_same (s : State) (b : BrokerAddress) (c : ConnCmd) : SameWork s (pushed s b c) := by
  refine ⟨qsum_congr (by simp) (by simp), osum_congr (by simp) fun x => ?_, by simp⟩
  simp only [pushed, setConn_conns]; split
  · rename_i h; subst h; rfl
  · rfl

/-- Every step: what the engine has left to do shrinks with each of its own steps and grows only by what it is given. -/
theorem backlog_step {cfg : Cfg} {s s' : State} {a : Act} (h : Reachable cfg s) (hs : step cfg s a = some s') :
    (if a.isWork then 1 else 0) + backlog s' ≤ backlog s + a.given := by
  have hwf := wf h
  have hst := step_cases hs
  clear hs
  have same : ∀ {x y : State}, SameWork x y → x.mode = y.mode → backlog y = backlog x := by
    intro x y hxy hm; unfold backlog; rw [hxy.q, hxy.o, hxy.r, hm]
  have conn1 : ∀ {b : BrokerAddress} {x : State}, x.nClients = s.nClients → x.clients = s.clients → x.addrs = s.addrs → x.regQueue = s.regQueue →
      x.mode = s.mode → (∀ y, (x.conns y).outbox = (s.conns y).outbox) → backlog x = backlog s := by
    intro b x h1 h2 h3 h4 h5 h6
    exact same ⟨qsum_congr h1 (by simp [h2]), osum_congr h3 h6, h4⟩ h5.symm
  have cl1 : ∀ {a : Act} {i : Nat} {c : ClientSt} {x : State}, a.isWork = false → x.clients = (s.setClient i c).clients → x.nClients = s.nClients →
      c.queue = (s.clients i).queue → x.addrs = s.addrs → x.conns = s.conns → x.regQueue = s.regQueue → x.mode = s.mode →
      (if a.isWork then 1 else 0) + backlog x ≤ backlog s + a.given := by
    intro a i c x h0 h1 h2 h3 h4 h5 h6 h7
    have : backlog x = backlog s := ?_
    · rw [this, h0]; simp
    refine same ⟨qsum_congr h2 fun j _ => ?_, osum_congr h4 (by simp [h5]), h6⟩ h7.symm
    rw [h1, setClient_clients]; split
    · rename_i hj; subst hj; exact h3
    · rfl
  cases hst with
  | startOk net hm s2 h2 =>
    have h3 : SameWork s s2 := by
      rcases h2 with ⟨rfl, _⟩ | ⟨hb, rfl⟩
      · exact ⟨rfl, rfl, rfl⟩
      · exact ⟨rfl, osum_dialed hb, rfl⟩
    have h4 : backlog { s2 with mode := .idle } = 2 * qsum s2 + osum s2 + s2.regQueue.length + 1 := rfl
    rw [h4, h3.q, h3.o, h3.r]
    simp [backlog, hm, weight, Act.isWork, Act.isEngine, Act.given]; omega
  | startFail net hm => rw [backlog_stop]; simp [backlog, hm, weight, Act.isWork, Act.isEngine, Act.given]; omega
  | outGone i auth net hm => rw [backlog_stop]; simp [backlog, hm, weight, Act.isWork, Act.isEngine, Act.given]; omega
  | out i auth net cmd q s' hm hv ha hq he =>
    have h1 := takeCmd_q (hwf.vecLt i hv) hq
    have h2 : osum (takeCmd s i cmd q) = osum s := osum_congr (by simp) (by simp)
    have h3 : (takeCmd s i cmd q).regQueue = s.regQueue := by simp
    have h4 : (takeCmd s i cmd q).mode = s.mode := by simp
    have hb : backlog s = 2 * qsum s + osum s + s.regQueue.length + 1 := by rw [backlog, hm]; rfl
    simp only [Act.isWork, Act.isEngine, Act.given, if_true]
    cases he with
    | failed => rw [backlog_stop, h2, h3]; omega
    | lost c c2 b s3 hc hcf hbb hp =>
      have := SameWork.prep hp
      rw [backlog_stop, this.q, this.o, this.r, h2, h3]; omega
    | sent j hn hj ha hl =>
      rw [same (pushed_same _ _ _) (by simp), backlog, h2, h3, h4, hm]
      simp only [weight]; omega
    | connecting c c2 b s3 j hc hcf hbb hp =>
      have k := SameWork.prep hp
      have k2 := pushed_same s3 (s3.clients j).broker ⟨.connect c2, some s3.nextReply, some (i, cmd)⟩
      have : backlog { pushed s3 (s3.clients j).broker ⟨.connect c2, some s3.nextReply, some (i, cmd)⟩ with
          nextReply := s3.nextReply + 1, mode := .awaitConnect s3.nextReply (s3.clients j).broker } =
          2 * qsum (pushed s3 (s3.clients j).broker ⟨.connect c2, some s3.nextReply, some (i, cmd)⟩) +
          osum (pushed s3 (s3.clients j).broker ⟨.connect c2, some s3.nextReply, some (i, cmd)⟩) +
          (pushed s3 (s3.clients j).broker ⟨.connect c2, some s3.nextReply, some (i, cmd)⟩).regQueue.length + 2 := rfl
      rw [this, k2.q, k2.o, k2.r, k.q, k.o, k.r, h2, h3]; omega
  | inLost b hm => rw [backlog_stop]; simp [backlog, hm, weight, Act.isWork, Act.isEngine, Act.given]; omega
  | inb b e q s' hm ha hv hq he =>
    have h1 := takeEvent_o hwf.addrs ha hq
    have h2 : qsum (takeEvent s b e q) = qsum s := qsum_congr (by simp) (by simp)
    have h3 : (takeEvent s b e q).regQueue = s.regQueue := by simp
    have h4 : (takeEvent s b e q).mode = s.mode := by simp
    have hb : backlog s = 2 * qsum s + osum s + s.regQueue.length + 1 := by rw [backlog, hm]; rfl
    have h5 : backlog (takeEvent s b e q) + 1 = backlog s := by rw [backlog, h2, h3, h4, hm, hb]; simp only [weight]; omega
    simp only [Act.isWork, Act.isEngine, Act.given, if_true]
    cases he with
    | pingFailed hp =>
      rw [backlog_stop]
      have : 2 * qsum (takeEvent s b e q) + osum (takeEvent s b e q) + (takeEvent s b e q).regQueue.length ≤ backlog (takeEvent s b e q) := by
        unfold backlog; omega
      show 1 + (2 * qsum (takeEvent s b e q) + osum (takeEvent s b e q) + (takeEvent s b e q).regQueue.length) ≤ _
      omega
    | ping hp ha hl =>
      rw [same (pushed_same _ _ _) (by simp)]
      show 1 + backlog (takeEvent s b e q) ≤ _
      omega
    | other hp => rw [same (managerSend_same _ _ _ _) (by simp)]; omega
  | reg i q hm hc hq hl =>
    have h1 : backlog { s.setClient i { s.clients i with broker := cfg.config.brokerAddress } with
        regQueue := q, vec := s.vec ++ [i], replies := s.replies + 1 } + 1 = backlog s := by
      unfold backlog
      rw [show qsum { s.setClient i { s.clients i with broker := cfg.config.brokerAddress } with
          regQueue := q, vec := s.vec ++ [i], replies := s.replies + 1 } = qsum s from qsum_congr rfl (fun j _ => by
            simp only [setClient_clients]; split
            · rename_i hj; subst hj; rfl
            · rfl),
        show osum { s.setClient i { s.clients i with broker := cfg.config.brokerAddress } with
          regQueue := q, vec := s.vec ++ [i], replies := s.replies + 1 } = osum s from rfl, hq]
      simp only [List.length_cons, setClient_mode]; omega
    exact Nat.le_trans (Nat.le_of_eq ((Nat.add_comm _ _).trans h1)) (Nat.le_add_right _ _)
  | regFail i q hm hc hq hl =>
    rw [backlog_stop, show qsum { s.setClient i { s.clients i with broker := cfg.config.brokerAddress } with
          regQueue := q, vec := s.vec ++ [i] } = qsum s from qsum_congr rfl (fun j _ => by
            simp only [setClient_clients]; split
            · rename_i hj; subst hj; rfl
            · rfl),
        show osum { s.setClient i { s.clients i with broker := cfg.config.brokerAddress } with
          regQueue := q, vec := s.vec ++ [i] } = osum s from rfl]
    simp only [Act.isWork, Act.isEngine, Act.given, if_true, backlog, hq, List.length_cons]; omega
  | regClosedStop hm => rw [backlog_stop]; simp [backlog, hm, weight, Act.isWork, Act.given]
  | regClosed => simp [Act.isWork, Act.given]
  | noConn hm => rw [backlog_stop]; simp [backlog, hm, weight, Act.isWork, Act.isEngine, Act.given]; omega
  | connectOk r b x e hm hf =>
    rw [same (managerSend_same _ _ _ _) (by simp)]
    have : backlog { s with mode := .idle } = 2 * qsum s + osum s + s.regQueue.length + 1 := rfl
    rw [this]
    simp [backlog, hm, weight, Act.isWork, Act.isEngine, Act.given]; omega
  | connectLost r b x hm => rw [backlog_stop]; simp [backlog, hm, weight, Act.isWork, Act.isEngine, Act.given]; omega
  | cmdEnd b w hl ha hq hm =>
    rw [conn1 (b := b) (x := endConn s b) rfl rfl rfl rfl rfl (fun y => by simp only [endConn, setConn_conns]; split; (rename_i h; subst h; rfl); rfl)]
    simp [Act.isWork, Act.isEngine, Act.given]
  | cmdOk b c q hl ha hq =>
    rw [conn1 (b := b)]
    all_goals simp [Act.isWork, Act.isEngine, Act.given]
    intro y; unfold connTake; split <;> simp only [setConn_conns] <;> split <;> simp_all
  | cmdFail b c q hl ha hq =>
    rw [conn1 (b := b)]
    all_goals simp [Act.isWork, Act.isEngine, Act.given]
  | cmdPanic b c q hl ha hq =>
    rw [conn1 (b := b)]
    all_goals simp [Act.isWork, Act.isEngine, Act.given]
  | readEnd b x hl ha hx =>
    rw [conn1 (b := b) (x := endConn s b) rfl rfl rfl rfl rfl (fun y => by simp only [endConn, setConn_conns]; split; (rename_i h; subst h; rfl); rfl)]
    simp [Act.isWork, Act.isEngine, Act.given]
  | readSkip b x hl ha hx => simp [Act.isWork, Act.isEngine, Act.given]
  | readConnected b v t inb r res hl ha hv hr =>
    rw [conn1 (b := b)]
    all_goals simp [Act.isWork, Act.isEngine, Act.given]
    intro y; simp only [setConn_conns]; split <;> simp_all
  | readForward b v t inb hl ha hv hr hm =>
    have := osum_update (s := s) (s' := s.setConn b { s.conns b with outbox := (s.conns b).outbox ++ [⟨inb, t⟩], reads := (s.conns b).reads ++ [⟨inb, t⟩] })
      hwf.addrs ha rfl (fun x hx => by simp [setConn_conns, hx])
    simp only [setConn_conns, if_true, List.length_append, List.length_cons, List.length_nil] at this
    have hq : qsum (s.setConn b { s.conns b with outbox := (s.conns b).outbox ++ [⟨inb, t⟩], reads := (s.conns b).reads ++ [⟨inb, t⟩] }) = qsum s := rfl
    simp only [backlog, Act.isWork, Act.isEngine, Act.given, setConn_mode, setConn_regQueue, hq]
    simp; omega
  | newClient name hl =>
    have h1 : qsum { s.setClient s.nClients
            ⟨⟨UInt64.ofNat s.nClients, name, 0, 0⟩, .fresh, cfg.config.brokerAddress, [], [], [], [], [], []⟩ with
          nClients := s.nClients + 1 } = qsum s := by
      unfold qsum
      simp only [List.range_succ, List.map_append, List.sum_append, setClient_clients, List.map_cons, List.map_nil, if_true]
      rw [List.map_congr_left (g := fun x => (s.clients x).queue.length) fun x hx => by
        rw [if_neg (by rintro rfl; simp at hx)]]
      simp
    have h2 : osum { s.setClient s.nClients
            ⟨⟨UInt64.ofNat s.nClients, name, 0, 0⟩, .fresh, cfg.config.brokerAddress, [], [], [], [], [], []⟩ with
          nClients := s.nClients + 1 } = osum s := rfl
    unfold backlog
    rw [h1, h2]
    simp [Act.isWork, Act.isEngine, Act.given]
  | sendRegFail i hl hi hp hm => exact cl1 (i := i) rfl rfl rfl rfl rfl rfl rfl rfl
  | sendReg i hl hi hp hm =>
    have h1 : qsum { s.setClient i { s.clients i with phase := .waiting } with regQueue := s.regQueue ++ [i] } = qsum s :=
      qsum_congr rfl fun j _ => by
        simp only [setClient_clients]; split
        · rename_i hj; subst hj; rfl
        · rfl
    have h2 : osum { s.setClient i { s.clients i with phase := .waiting } with regQueue := s.regQueue ++ [i] } = osum s := rfl
    unfold backlog
    rw [h1, h2]
    simp [Act.isWork, Act.isEngine, Act.given]; omega
  | recvReply i hl hi hp hr => exact cl1 (i := i) rfl rfl rfl rfl rfl rfl rfl rfl
  | recvReplyFail i hl hi hp hr => exact cl1 (i := i) rfl rfl rfl rfl rfl rfl rfl rfl
  | cancelReg i hi hp => exact cl1 (i := i) rfl rfl rfl rfl rfl rfl rfl rfl
  | request i call hi hp hr => exact cl1 (i := i) rfl rfl rfl rfl rfl rfl rfl rfl
  | oneway i call hi hp hr => exact cl1 (i := i) rfl rfl rfl rfl rfl rfl rfl rfl
  | submit i k cmd hi hk he =>
    have := qsum_update (s := s) (s' := s.setClient i { s.clients i with starting := (s.clients i).starting.eraseIdx k, queue := (s.clients i).queue ++ [cmd], submitted := (s.clients i).submitted ++ [cmd] }) hi rfl (fun j hj => by simp [setClient_clients, hj])
    simp only [setClient_clients, if_true, List.length_append, List.length_cons, List.length_nil] at this
    have ho : osum (s.setClient i { s.clients i with starting := (s.clients i).starting.eraseIdx k, queue := (s.clients i).queue ++ [cmd], submitted := (s.clients i).submitted ++ [cmd] }) = osum s := rfl
    simp only [backlog, Act.isWork, Act.isEngine, Act.given, setClient_mode, setClient_regQueue, ho]
    simp; omega
  | refuse i k cmd hi hk he => exact cl1 (i := i) rfl rfl rfl rfl rfl rfl rfl rfl
  | clientNext i e q hi hp hq => exact cl1 (i := i) rfl rfl rfl rfl rfl rfl rfl rfl
  | dropClient i hi hp hs => exact cl1 (i := i) rfl rfl rfl rfl rfl rfl rfl rfl
  | freeQueue i hi hp he =>
    have fq : ∀ x : State, x.nClients = s.nClients → (∀ j, j ≠ i → (x.clients j).queue = (s.clients j).queue) → (x.clients i).queue = [] →
        osum x = osum s → x.regQueue = s.regQueue → x.mode = s.mode → backlog x ≤ backlog s := by
      intro x h0 h1 h2 h3 h4 h5
      have := qsum_update hi h0 h1
      rw [h2] at this
      simp only [backlog, h3, h4, h5, List.length_nil] at this ⊢
      omega
    refine Nat.le_trans (Nat.le_of_eq (Nat.zero_add _)) (Nat.le_trans (fq _ rfl (fun j hj => ?_) ?_ rfl rfl rfl) (Nat.le_add_right _ _))
    · simp [setClient_clients, hj]
    · simp [setClient_clients]
  | dropManager hl h =>
    have : backlog { s with managerAlive := false } = backlog s := rfl
    rw [this]; simp [Act.isWork, Act.isEngine]

/-! ## C102: the engine works only on what it is given -/

theorem run_backlog {cfg : Cfg} {as : List Act} {s : State} (h : Run cfg as s) :
    countActs Act.isWork as + backlog s ≤ givenIn as + 2 := by
  induction h with
  | nil => exact Nat.le_refl _
  | @snoc as s s' a hr hs ih =>
    have h1 := backlog_step ⟨_, hr⟩ hs
    have h2 : countActs Act.isWork (as ++ [a]) = countActs Act.isWork as + (if a.isWork then 1 else 0) := by
      unfold countActs
      rw [List.filter_append, List.length_append]
      cases ha : a.isWork <;> simp [ha]
    have h3 : givenIn (as ++ [a]) = givenIn as + a.given := by unfold givenIn; simp
    omega

theorem manager_lives {cfg : Cfg} {as : List Act} {s : State} (h : Run cfg as s) (hd : Act.dropManager ∉ as) :
    s.managerAlive = true ∧ Act.engRegClosed ∉ as := by
  induction h with
  | nil => exact ⟨rfl, by simp⟩
  | @snoc as s s' a hr hs ih =>
    simp only [List.mem_append, List.mem_singleton, not_or] at hd
    obtain ⟨ih1, ih2⟩ := ih hd.1
    have hst := step_cases hs
    clear hs
    simp only [List.mem_append, List.mem_singleton, not_or]
    cases hst with
    | startOk net hm s2 h2 => rcases h2 with ⟨rfl, _⟩ | ⟨_, rfl⟩ <;> simp_all
    | out i auth net cmd q s' hm hv ha hq he =>
      cases he with
      | lost c c2 b s3 hc hcf hbb hp => simp_all [hp.managerAlive]
      | connecting c c2 b s3 j hc hcf hbb hp => simp_all [hp.managerAlive]
      | _ => simp_all
    | inb b e q s' hm ha hv hq he => cases he <;> simp_all
    | _ => simp_all

/-- As long as the application keeps its `PulsarManager` it can create another client, under any name, whatever else has happened:
the engine may even be gone. -/
theorem C85_can_create {cfg : Cfg} {as : List Act} {s : State} (h : Run cfg as s) (hd : Act.dropManager ∉ as) (name : String) :
    ∃ s', step cfg s (.newClient name) = some s' ∧ s'.nClients = s.nClients + 1 ∧
      (s'.clients s.nClients).core.clientName = name := by
  have hm := (manager_lives h hd).1
  refine ⟨_, show newClient cfg s name = some _ from if_pos hm, rfl, ?_⟩
  simp [State.setClient]

/-- As long as the application keeps its `PulsarManager`, the engine makes at most two steps for every command handed to it, one for
every registration and one for every command read from a socket, and two more for starting and stopping: without anything to do it
rests. -/
theorem C102_rests {cfg : Cfg} {as : List Act} {s : State} (h : Run cfg as s) (hd : Act.dropManager ∉ as) :
    countActs Act.isEngine as ≤ givenIn as + 2 := by
  have h1 := run_backlog h
  have h2 : countActs Act.isEngine as = countActs Act.isWork as := by
    unfold countActs
    congr 1
    refine List.filter_congr fun a ha => ?_
    cases a <;> simp [Act.isWork, Act.isEngine]
    exact (manager_lives h hd).2 ha
  omega

/-- Dropped or not: all its steps, except finding the registration channel closed, are paid for in this way. -/
theorem C102_work {cfg : Cfg} {as : List Act} {s : State} (h : Run cfg as s) : countActs Act.isWork as ≤ givenIn as + 2 :=
  Nat.le_trans (Nat.le_add_right _ _) (run_backlog h)

/-- With nothing to do, a waiting engine with a living manager can make no step. -/
theorem C102_waits {cfg : Cfg} {s : State} (h : Reachable cfg s) (hm : s.mode = .idle) (hn : NothingToDo s) (hl : s.managerAlive = true)
    (ha : s.addrs ≠ []) (a : Act) (he : a.isEngine = true) : step cfg s a = none := by
  obtain ⟨h1, h2, h3⟩ := hn
  cases a <;> simp only [Act.isEngine, Bool.false_eq_true] at he <;> simp only [step]
  · simp [engStart, hm]
  · rename_i i auth net
    unfold engOut
    split
    · rename_i hc
      have := h1 i ((wf h).vecLt i hc.2.1)
      rw [this.1]
      simp [this.2]
    · rfl
  · rename_i b
    unfold engIn
    split
    · rename_i hc
      have := h2 b hc.2.1
      rw [this.1]
      simp [this.2]
    · rfl
  · simp [engReg, h3]
  · simp [engRegClosed, hl]
  · simp [engNoConn, ha]
  · simp [engConnectDone, hm]

/-! ## C101: without the manager it never rests -/

/-- Once the `PulsarManager` is dropped, the engine never waits between two events, however little there is to do. -/
theorem C101_refuted_spins {cfg : Cfg} {s : State} (hm : s.mode = .idle) (hl : s.managerAlive = false) :
    ∃ a s', a.isEngine = true ∧ step cfg s a = some s' := by
  cases hr : s.regQueue with
  | cons i q =>
    by_cases hc : s.vec = [] ∨ s.addrs ≠ []
    · exact ⟨.engReg, _, rfl, by simp only [step, engReg, hm, hc, and_self, if_true, hr, setClient_managerAlive, hl]; rfl⟩
    · rw [not_or] at hc
      exact ⟨.engNoConn, stop s, rfl, by simp only [step, engNoConn, hm, hc.1, ne_eq, not_false_eq_true, Classical.not_not.mp hc.2, and_self, if_true]⟩
  | nil =>
    by_cases hv : s.vec = []
    · exact ⟨.engRegClosed, stop s, rfl, by simp only [step, engRegClosed, hm, hr, hl, hv, and_self, if_true]⟩
    · by_cases ha : s.addrs = []
      · exact ⟨.engNoConn, stop s, rfl, by simp only [step, engNoConn, hm, hv, ha, ne_eq, not_false_eq_true, and_self, if_true]⟩
      · exact ⟨.engRegClosed, _, rfl, by simp only [step, engRegClosed, hm, hr, hl, hv, ha, ne_eq, not_false_eq_true, and_self, if_true, if_false]; rfl⟩

/-- The claim for every instance is false: a client is connected and idle, nothing is to be done, the manager has been dropped; the
engine can make any number of steps, all of which change nothing. -/
theorem C101_refuted : ∃ s, Reachable cfg0 s ∧ s.mode = .idle ∧ NothingToDo s ∧ s.nClients = 1 ∧
    ∀ n, exec cfg0 s (List.replicate n .engRegClosed) = some s := by
  obtain ⟨s, hr, ho⟩ := reachable_obs (f := fun s => (s.mode, s.nClients, (s.clients 0).queue.length, (s.clients 0).phase, s.addrs,
      (s.conns b0).outbox.length, (s.conns b0).alive, s.regQueue, s.managerAlive, s.vec))
    (as := boot ++ join 0 ++ [.dropManager]) (x := (.idle, 1, 0, .ready, [b0], 0, true, [], false, [0])) (by rfl)
  simp only [Prod.mk.injEq, List.length_eq_zero_iff] at ho
  obtain ⟨h1, h2, h3, h4, h5, h6, h7, h8, h9, h10⟩ := ho
  refine ⟨s, ⟨_, hr⟩, h1, ⟨?_, ?_, h8⟩, h2, fun n => ?_⟩
  · intro i hi
    obtain rfl : i = 0 := by omega
    exact ⟨h3, h4⟩
  · intro b hb
    rw [h5, List.mem_singleton] at hb
    subst hb
    exact ⟨h6, h7⟩
  · induction n with
    | zero => rfl
    | succ n ih =>
      rw [List.replicate_succ, exec]
      have : step cfg0 s .engRegClosed = some s := by simp [step, engRegClosed, h1, h8, h9, h10, h5]
      rw [this]; exact ih

/-- Non-vacuity of `C102_waits` and `C102_rests`. -/
example : ∃ s, Run cfg0 (boot ++ join 0) s ∧ s.mode = .idle ∧ NothingToDo s ∧ s.managerAlive = true ∧ s.addrs ≠ [] ∧
    countActs Act.isEngine (boot ++ join 0) = 2 ∧ givenIn (boot ++ join 0) = 1 := by
  obtain ⟨s, hr, ho⟩ := reachable_obs (f := fun s => (s.mode, s.nClients, (s.clients 0).queue.length, (s.clients 0).phase, s.addrs,
      (s.conns b0).outbox.length, (s.conns b0).alive, s.regQueue, s.managerAlive, s.vec))
    (as := boot ++ join 0) (x := (.idle, 1, 0, .ready, [b0], 0, true, [], true, [0])) (by rfl)
  simp only [Prod.mk.injEq, List.length_eq_zero_iff] at ho
  obtain ⟨h1, h2, h3, h4, h5, h6, h7, h8, h9, h10⟩ := ho
  refine ⟨s, hr, h1, ⟨?_, ?_, h8⟩, h9, by simp [h5], by decide, by decide⟩
  · intro i hi
    obtain rfl : i = 0 := by omega
    exact ⟨h3, h4⟩
  · intro b hb
    rw [h5, List.mem_singleton] at hb
    subst hb
    exact ⟨h6, h7⟩

/-! ## C103, C104: dropping everything releases everything -/

/-- Everything dropped stays dropped, and only sockets give the engine anything to do. -/
theorem dropped_step {cfg : Cfg} {s s' : State} {a : Act} (h : Reachable cfg s) (hs : step cfg s a = some s') (hd : AllDropped s) :
    AllDropped s' ∧ (a.given = 0 ∨ ∃ b x, a = .connRead b x) := by
  obtain ⟨h1, h2⟩ := hd
  have hq := quiet h
  have hst := step_cases hs
  clear hs
  cases hst with
  | startOk net hm s2 h2 => rcases h2 with ⟨rfl, _⟩ | ⟨_, rfl⟩ <;> exact ⟨⟨h1, h2⟩, .inl rfl⟩
  | out i auth net cmd q s' hm hv ha hq he =>
    cases he with
    | lost c c2 b s3 hc hcf hbb hp =>
      exact ⟨⟨by simp [hp.managerAlive, h1], fun i hi => by simpa [hp.clients_phase] using h2 i (by simpa [hp.nClients] using hi)⟩, .inl rfl⟩
    | connecting c c2 b s3 j hc hcf hbb hp =>
      exact ⟨⟨by simp [hp.managerAlive, h1], fun i hi => by simpa [hp.clients_phase] using h2 i (by simpa [hp.nClients] using hi)⟩, .inl rfl⟩
    | _ => exact ⟨⟨by simpa using h1, fun i hi => by simpa using h2 i (by simpa using hi)⟩, .inl rfl⟩
  | inb b e q s' hm ha hv hq he =>
    cases he <;> exact ⟨⟨by simpa using h1, fun i hi => by simpa using h2 i (by simpa using hi)⟩, .inl rfl⟩
  | reg i q hm hc hq hl => rw [h1] at hl; cases hl
  | newClient name hl => rw [h1] at hl; cases hl
  | sendRegFail i hl => rw [h1] at hl; cases hl
  | sendReg i hl => rw [h1] at hl; cases hl
  | recvReply i hl => rw [h1] at hl; cases hl
  | recvReplyFail i hl => rw [h1] at hl; cases hl
  | dropManager hl => rw [h1] at hl; cases hl
  | request i call hi hp => rw [h2 i hi] at hp; cases hp
  | oneway i call hi hp => rw [h2 i hi] at hp; cases hp
  | clientNext i e q hi hp => rw [h2 i hi] at hp; cases hp
  | dropClient i hi hp => rw [h2 i hi] at hp; cases hp
  | cancelReg i hi hp => rw [h2 i hi] at hp; rcases hp with hp | hp <;> cases hp
  | submit i k cmd hi hk => rw [hq i hi (by rw [h2 i hi]; simp)] at hk; cases hk
  | refuse i k cmd hi hk => rw [hq i hi (by rw [h2 i hi]; simp)] at hk; cases hk
  | regFail i q hm hc hq hl =>
    refine ⟨⟨by simpa using h1, fun j hj => ?_⟩, .inl rfl⟩
    simp only [stop_clients, setClient_clients]
    split
    · rename_i h; subst h; exact h2 j hj
    · exact h2 j hj
  | freeQueue i hi hp he =>
    refine ⟨⟨by simpa using h1, fun j hj => ?_⟩, .inl rfl⟩
    simp only [setClient_clients]
    split
    · rename_i h; subst h; exact hp
    · exact h2 j hj
  | readEnd b x => exact ⟨⟨by simpa using h1, fun i hi => by simpa using h2 i (by simpa using hi)⟩, .inr ⟨_, _, rfl⟩⟩
  | readSkip b x => exact ⟨⟨by simpa using h1, fun i hi => by simpa using h2 i (by simpa using hi)⟩, .inr ⟨_, _, rfl⟩⟩
  | readConnected b v => exact ⟨⟨by simpa using h1, fun i hi => by simpa using h2 i (by simpa using hi)⟩, .inr ⟨_, _, rfl⟩⟩
  | readForward b v => exact ⟨⟨by simpa using h1, fun i hi => by simpa using h2 i (by simpa using hi)⟩, .inr ⟨_, _, rfl⟩⟩
  | _ => exact ⟨⟨by simpa using h1, fun i hi => by simpa using h2 i (by simpa using hi)⟩, .inl rfl⟩

/-- Everything is dropped and the engine is between two events: whatever the plugin and the network do, it can make a step that either
stops it or uses up something it was given. -/
theorem C104_goes_on {cfg : Cfg} {s : State} (h : Reachable cfg s) (hd : AllDropped s) (hm : s.mode = .idle) (auth : Outcome Bytes)
    (net : Net) : ∃ a s', (a = .engReg ∨ a = .engRegClosed ∨ a = .engNoConn ∨ ∃ i, a = .engOut i auth net) ∧
      step cfg s a = some s' ∧ (s'.mode = .stopped ∨ a.isWork = true) := by
  by_cases hv : s.vec = []
  · cases hr : s.regQueue with
    | cons i q =>
      have : (step cfg s .engReg).isSome = true := by
        simp only [step, engReg, hm, hv, true_or, and_self, if_true, hr]; split <;> rfl
      obtain ⟨s', hs'⟩ := Option.isSome_iff_exists.mp this
      exact ⟨.engReg, s', .inl rfl, hs', .inr rfl⟩
    | nil => exact ⟨.engRegClosed, stop s, .inr (.inl rfl), by simp only [step, engRegClosed, hm, hr, hd.1, hv, and_self, if_true], .inl rfl⟩
  · by_cases ha : s.addrs = []
    · exact ⟨.engNoConn, stop s, .inr (.inr (.inl rfl)), by simp only [step, engNoConn, hm, hv, ha, ne_eq, not_false_eq_true, and_self, if_true], .inl rfl⟩
    · obtain ⟨i, v, hv⟩ := List.exists_cons_of_ne_nil hv
      have hi : i ∈ s.vec := by simp [hv]
      have hg := hd.2 i ((wf h).vecLt i hi)
      cases hq : (s.clients i).queue with
      | nil => exact ⟨.engOut i auth net, stop s, .inr (.inr (.inr ⟨i, rfl⟩)), by
          simp only [step, engOut, hm, hi, ha, ne_eq, not_false_eq_true, and_self, if_true, hq, hg], .inl rfl⟩
      | cons cmd q => exact ⟨.engOut i auth net, finish (handleOutbound cfg (takeCmd s i cmd q) i cmd auth net), .inr (.inr (.inr ⟨i, rfl⟩)), by
          simp only [step, engOut, hm, hi, ha, ne_eq, not_false_eq_true, and_self, if_true, hq], .inr rfl⟩

/-- And it can make only so many: two for every command and one for every registration and command read before everything was dropped,
one for every command read afterwards, and two. -/
theorem C104_bounded {cfg : Cfg} {as bs : List Act} {s s' : State} (h : Run cfg as s) (hd : AllDropped s)
    (he : exec cfg s bs = some s') : AllDropped s' ∧ countActs Act.isWork (as ++ bs) ≤
      givenIn as + 2 + countActs (fun a => match a with | .connRead .. => true | _ => false) bs := by
  have hr := run_of_exec h he
  have h1 := C102_work hr
  have key : ∀ (bs : List Act) (s : State), Reachable cfg s → AllDropped s → exec cfg s bs = some s' → AllDropped s' ∧
      givenIn bs ≤ countActs (fun a => match a with | .connRead .. => true | _ => false) bs := by
    intro bs
    induction bs with
    | nil => intro s _ hd he; cases he; exact ⟨hd, Nat.le_refl _⟩
    | cons a bs ih =>
      intro s hr hd he
      unfold exec at he
      split at he
      · rename_i s1 hs1
        obtain ⟨k1, k2⟩ := dropped_step hr hs1 hd
        obtain ⟨i1, i2⟩ := ih s1 (hr.step hs1) k1 he
        refine ⟨i1, ?_⟩
        unfold givenIn countActs at i2 ⊢
        rw [List.map_cons, List.sum_cons]
        rcases k2 with k2 | ⟨b, x, rfl⟩
        · rw [k2, Nat.zero_add]
          refine Nat.le_trans i2 ?_
          rw [List.filter_cons]
          split <;> simp
        · rw [List.filter_cons_of_pos rfl, List.length_cons]
          simp only [Act.given]; omega
      · cases he
  obtain ⟨k1, k2⟩ := key bs s ⟨_, h⟩ hd he
  refine ⟨k1, Nat.le_trans h1 ?_⟩
  unfold givenIn at k2 ⊢
  rw [List.map_append, List.sum_append]
  omega

/-- Once the engine has stopped, every connection still open can make a step; if it has nothing left to write, that step closes it. -/
theorem C104_connections {cfg : Cfg} {s : State} {b : BrokerAddress} (hm : s.mode = .stopped) (hb : b ∈ s.addrs)
    (hl : (s.conns b).alive = true) (w : Write) : ∃ s', step cfg s (.connCmd b w) = some s' ∧
      ((s'.conns b).alive = false ∨ (s'.conns b).queue.length + 1 = (s.conns b).queue.length) := by
  cases hq : (s.conns b).queue with
  | nil => exact ⟨endConn s b, by simp [step, Sys.connCmd, hl, hb, hq, hm, NeutronError.isDisconnect], .inl (by simp [endConn, setConn_conns])⟩
  | cons c q =>
    have hct : ((connTake s b c q).conns b).queue = q := by unfold connTake; split <;> simp [setConn_conns]
    cases w with
    | ok => exact ⟨_, by simp only [step, Sys.connCmd, hl, hb, and_self, if_true, hq]; rfl, .inr (by simp [setConn_conns, hct])⟩
    | failed => exact ⟨_, by simp only [step, Sys.connCmd, hl, hb, and_self, if_true, hq]; rfl, .inr (by simp [hct])⟩
    | panicked => exact ⟨_, by simp only [step, Sys.connCmd, hl, hb, and_self, if_true, hq]; rfl, .inl (by simp [endConn, setConn_conns])⟩

/-- The claim in full is false: everything is dropped while the engine waits for the answer to a `CONNECT` the broker has rejected.  No
step of the engine is possible, the socket stays open and its task has nothing to do. -/
theorem C103_refuted : ∃ s, Reachable cfg0 s ∧ AllDropped s ∧ s.nClients = 1 ∧ (s.conns b0).alive = true ∧ b0 ∈ s.addrs ∧
    (∀ a : Act, a.isEngine = true → step cfg0 s a = none) ∧ ∀ w, step cfg0 s (.connCmd b0 w) = none := by
  obtain ⟨s, hr, ho⟩ := reachable_obs (f := fun s => (s.mode, s.nClients, (s.clients 0).phase, s.managerAlive, s.addrs, s.replyDone.length,
      (s.conns b0).alive, (s.conns b0).queue.length))
    (as := boot ++ join 0 ++ ask 0 .connect ++ [.connCmd b0 .ok, .connRead b0 (.command (errorC 0) (some 0)), .dropClient 0, .dropManager])
    (x := (.awaitConnect 0 b0, 1, .gone, false, [b0], 0, true, 0)) (by rfl)
  simp only [Prod.mk.injEq, List.length_eq_zero_iff] at ho
  obtain ⟨h1, h2, h3, h4, h5, h6, h7, h8⟩ := ho
  refine ⟨s, ⟨_, hr⟩, ⟨h4, ?_⟩, h2, h7, by simp [h5], ?_, ?_⟩
  · intro i hi
    obtain rfl : i = 0 := by omega
    exact h3
  · intro a ha
    cases a <;> simp only [Act.isEngine, Bool.false_eq_true] at ha <;>
      simp [step, engStart, engOut, engIn, engReg, engRegClosed, engNoConn, engConnectDone, h1, h6]
  · intro w
    simp [step, Sys.connCmd, h7, h8, h5, h1]

/-- Non-vacuity of C104: a run in which everything has been dropped, and what follows. -/
example : ∃ s s', Run cfg0 (boot ++ join 0 ++ ask 0 (.sendMessage [1]) ++ [.dropClient 0, .dropManager]) s ∧ AllDropped s ∧ s.mode = .idle ∧
    exec cfg0 s [.engRegClosed, .engOut 0 (.ok []) net0, .connCmd b0 .ok, .connCmd b0 .ok] = some s' ∧ s'.mode = .stopped ∧
    (s'.conns b0).alive = false := by
  obtain ⟨s, hr, ho⟩ := reachable_obs (f := fun s => ((s.mode, s.nClients, (s.clients 0).phase, s.managerAlive),
      (exec cfg0 s [.engRegClosed, .engOut 0 (.ok []) net0, .connCmd b0 .ok, .connCmd b0 .ok]).map fun s' => (s'.mode, (s'.conns b0).alive)))
    (as := boot ++ join 0 ++ ask 0 (.sendMessage [1]) ++ [.dropClient 0, .dropManager])
    (x := ((.idle, 1, .gone, false), some (.stopped, false))) (by rfl)
  simp only [Prod.mk.injEq] at ho
  obtain ⟨⟨h1, h2, h3, h4⟩, h5⟩ := ho
  rw [Option.map_eq_some_iff] at h5
  obtain ⟨s', h5, h6⟩ := h5
  simp only [Prod.mk.injEq] at h6
  refine ⟨s, s', hr, ⟨h4, ?_⟩, h1, h5, h6.1, h6.2⟩
  intro i hi
  obtain rfl : i = 0 := by omega
  exact h3

end Neutron.Props
