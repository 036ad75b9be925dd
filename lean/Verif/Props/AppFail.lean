import Verif.Props.AppExample
import Verif.Proof.WorldCalls

/-!
# C116: a `connect` that fails
-/

namespace Neutron.Sys

theorem gone_step {cfg : Cfg} {s s' : State} {a : Act} (hs : step cfg s a = some s') {i : Nat} (hi : i < s.nClients)
    (hr : (s.clients i).phase = .gone) : (s'.clients i).phase = .gone := by
  cases step_cases hs with
  | startOk net hm s2 h2 => rcases h2 with ⟨rfl, hb⟩ | ⟨hb, rfl⟩ <;> simpa using hr
  | out j auth net cmd q s'' hm hv ha hq he =>
    have ht : ((takeCmd s j cmd q).clients i).phase = (s.clients i).phase := by
      rw [takeCmd_clients]; split
      · rename_i hij; subst hij; rfl
      · rfl
    cases he with
    | lost c c2 b s3 hcc h2 hb hp => simp [hp.clients_phase, ht, hr]
    | connecting c c2 b s3 k hcc h2 hb hp hj ha hl => simp [hp.clients_phase, ht, hr]
    | _ => simp [ht, hr]
  | inb b e q s'' hm ha hv hq he =>
    cases he with
    | pingFailed => simpa using hr
    | ping => simpa using hr
    | other hp =>
      rcases managerSend_client (takeEvent s b e q) { e with inb := adjust b e.inb } b false i with hc | ⟨hc, hrc, _⟩
      · rw [hc]; simpa using hr
      · rw [hc]; simpa using hr
  | connectOk r b x e hm hf =>
    rcases managerSend_client { s with mode := .idle } e b true i with hc | ⟨hc, hrc, _⟩
    · rw [hc]; simpa using hr
    · rw [hc]; simpa using hr
  | newClient name hl =>
    have : i ≠ s.nClients := by omega
    simp [setClient_clients, this, hr]
  | recvReply j | reg j | regFail j | sendRegFail j | sendReg j  | recvReplyFail j | cancelReg j | request j | oneway j | submit j | refuse j
    | freeQueue j | clientNext j | dropClient j =>
    by_cases hij : i = j
    · subst hij; simp_all [setClient_clients]
    · simp [setClient_clients, hij, hr]
  | _ => simpa using hr

end Neutron.Sys

namespace Neutron.App

open Neutron World

variable {T : Type}

/-- What is known of a failed `connect`. -/
def Failed (s : Sys.State) (j : Job) : Prop :=
  j.owns = true → ∀ i, j.client = some i → i < s.nClients ∧ ∀ o, j.prog = .ret o → o ≠ .ok () → (s.clients i).phase = .gone

theorem sysSteps_one {cfg : Sys.Cfg} {s s' : Sys.State} {a : Sys.Act} (h : sysSteps cfg s [a] = some s') : Sys.step cfg s a = some s' := by
  simp only [sysSteps] at h
  split at h
  · rename_i hs; cases h; exact hs
  · cases h

theorem failed {cfg : World.Cfg T} {acts : List Act} {log : List World.Act} {a : State T} (h : Run cfg acts log a) :
    ∀ j ∈ a.jobs, Failed a.world.sys j := by
  refine job_induct_with (I := fun _ j => Kind j ∧ ∀ i p, j.made = .call i p → j.owns = false)
    (fun h j hj => ⟨kind h j hj, (Props.start_of h j hj).2.2⟩) Failed ?_ ?_ ?_ (fun _ _ h => h) h
  · intro s a s' j hr hq hs ho i hc
    obtain ⟨h1, h2⟩ := hq ho i hc
    exact ⟨Nat.lt_of_lt_of_le h1 (Sys.nClients_mono hs), fun o hp hn => Sys.gone_step hs h1 (h2 o hp hn)⟩
  · intro s c hr _ ho i hc
    cases c with
    | call k p => cases ho
    | consumer b => cases hc
    | producer b => cases hc
  · intro s s' j as hr ⟨hk, hcall⟩ hq hl ha hs hq' ho i hc
    have stage : ∀ {name topic : String} {p : Prog Unit}, Stage name topic p j → i < s'.nClients ∧
        ∀ o, (j.after s s').prog = .ret o → o ≠ .ok () → (s'.clients i).phase = .gone := by
      intro name topic p hst
      cases hst with
      | new hcn hp ht =>
        have e : j.after s s' = { j with client := some s.nClients, trace := j.trace ++ [.allocated (UInt64.ofNat s.nClients)], prog := .register topic (UInt64.ofNat s.nClients) (registered name p (UInt64.ofNat s.nClients)) } := by
          unfold Job.after; rw [hp]; rfl
        rw [e] at hc ⊢
        simp only [Option.some.injEq] at hc
        subst hc
        simp only [Job.acts, hp, setup, Option.some.injEq] at ha
        subst ha
        have hst := sysSteps_one hs
        refine ⟨?_, fun o h => by cases h⟩
        cases Sys.step_cases hst with
        | newClient => exact Nat.lt_succ_self _
      | registering k hcn ht hp =>
        cases hph : (s'.clients k).phase with
        | fresh | waiting =>
          have : j.after s s' = j := by unfold Job.after; rw [hp, hcn]; simp only [hph]
          rw [this] at hc ⊢
          refine ⟨(hq' (by rw [← this]; exact ho) i hc).1, fun o h => by rw [hp] at h; cases h⟩
        | ready =>
          have : j.after s s' = { j with prog := .session ⟨UInt64.ofNat k, name, 0, 0⟩ p .ret
                                         trace := j.trace ++ [.registered topic (UInt64.ofNat k) (.ok ())] } := by
            unfold Job.after; rw [hp, hcn]; simp only [hph, registered]
          rw [this] at hc ho ⊢
          exact ⟨(hq' ho i hc).1, fun o h => by cases h⟩
        | gone =>
          have : j.after s s' = { j with prog := .ret (.err .channelTerminated)
                                         trace := j.trace ++ [.registered topic (UInt64.ofNat k) (.err .channelTerminated)] } := by
            unfold Job.after; rw [hp, hcn]; simp only [hph, registered]
          rw [this] at hc ho ⊢
          have hik : i = k := by rw [hcn] at hc; exact (Option.some.inj hc).symm
          exact ⟨(hq' ho i hc).1, fun o _ _ => hik ▸ hph⟩
      | refused k hcn hp ht =>
        rw [after_ret hp] at hc ho ⊢
        exact hq' ho i hc
      | calls k evs hcn hp ht =>
        have hown : j.owns = true := by rw [← (after_made s s' j).2.2.1]; exact ho
        have hik : i = k := by
          rw [(after_calls (s := s) (s' := s') hcn hp (pre := [_, _]) ht).1] at hc
          exact (Option.some.inj hc).symm
        subst hik
        refine ⟨(hq' hown i hcn).1, ?_⟩
        cases hp with
        | over o h => rw [after_ret h]; exact (hq' hown i hcn).2
        | running p h =>
          cases p with
          | ret o =>
            have : j.after s s' = { j with prog := .ret o } := by unfold Job.after; rw [h, hcn]
            rw [this]
            intro o' ho' hne
            cases ho'
            have : j.acts s = some [.dropClient i] := by
              unfold Job.acts
              rw [h, hcn]
              cases o with
              | ok u => exact absurd rfl hne
              | err e => simp [hown]
              | panic => simp [hown]
            rw [this] at ha
            cases ha
            cases Sys.step_cases (sysSteps_one hs) with
            | dropClient _ hi hp' hst => simp [Sys.setClient_clients]
          | hand call k =>
            intro o ho'
            cases hh : j.handing with
            | none => rw [after_begin h hcn hh] at ho'; rw [h] at ho'; cases ho'
            | some tok => rw [after_put h hcn hh] at ho'; cases ho'
          | wait t call k =>
            intro o ho'
            unfold Job.after at ho'
            rw [h, hcn] at ho'
            dsimp only at ho'
            split at ho'
            · cases ho'
            · rw [h] at ho'; cases ho'
    cases hk with
    | missing hp hcn ht hm =>
      rw [after_ret hp] at hc
      rw [hcn] at hc; cases hc
    | consumer b name topic subscription hb hm hn hs => exact stage hs
    | producer b name topic hb hm hn hs => exact stage hs
    | call i p core evs hm hcn hp ht hs' =>
      rw [(after_made s s' j).2.2.1, hcall i p hm] at ho
      cases ho

end Neutron.App

namespace Neutron.Props

open Neutron World App

variable {T : Type}

/-- A `connect` that fails after its client was made leaves that client dropped ... -/
theorem C116_client_dropped {cfg : World.Cfg T} {acts : List App.Act} {log : List World.Act} {a : App.State T} (h : App.Run cfg acts log a)
    {j : App.Job} (hj : j ∈ a.jobs) (hm : (∃ b, j.made = .consumer b) ∨ ∃ b, j.made = .producer b) {o : Outcome Unit}
    (he : j.ended = some o) (ho : o ≠ .ok ()) {i : Nat} (hc : j.client = some i) : (a.world.sys.clients i).phase = .gone := by
  have hown : j.owns = true := by
    rcases hm with ⟨b, hm⟩ | ⟨b, hm⟩
    · exact ((start_of h j hj).1 b hm).2
    · exact ((start_of h j hj).2.1 b hm).2
  exact (failed h j hj hown i hc).2 o (ended_ret.mp he) ho

/-- ... and the next time the engine looks at that client's empty channel, it stops: every request of every client that waits for a
response fails (and, by C31, so does every later call). -/
theorem C116_refuted_in_general {cfg : World.Cfg T} {acts : List App.Act} {log : List World.Act} {a : App.State T} (h : App.Run cfg acts log a)
    {j : App.Job} (hj : j ∈ a.jobs) (hm : (∃ b, j.made = .consumer b) ∨ ∃ b, j.made = .producer b) {o : Outcome Unit}
    (he : j.ended = some o) (ho : o ≠ .ok ()) {i : Nat} (hc : j.client = some i)
    (hidle : a.world.sys.mode = .idle) (hv : i ∈ a.world.sys.vec) (ha : a.world.sys.addrs ≠ [])
    (hq : (a.world.sys.clients i).queue = []) (hsv : a.world.serving = none) (auth : Outcome Bytes) (net : Net) :
    ∃ a', App.step cfg a (.world (.sys (.engOut i auth net))) = some a' ∧ a'.world.sys.mode = .stopped ∧
      ∀ t, AwaitingResponse a.world.sys t → (t, Sys.TokResult.cancelled) ∈ a'.world.sys.outcomes := by
  obtain ⟨s', h1, h2, h3⟩ := C33_refuted (cfg := cfg.sys) hidle hv ha (C116_client_dropped h hj hm he ho hc) hq auth net
  refine ⟨⟨World.sync cfg { a.world with serving := none } s', a.jobs⟩, ?_, ?_, ?_⟩
  · simp only [App.step, possible, App.free, if_true, App.induced, worldSteps, World.step, World.free, turn, hsv, decide_true, Bool.true_or,
      World.engine, h1, jobsAfter]
  · exact h2
  · exact h3

/-- What a `connect` without one of the required values does: it panics, and that is all; it makes no client and nothing in the
instance changes by it. -/
theorem C116_missing_value {cfg : World.Cfg T} {acts : List App.Act} {log : List World.Act} {a : App.State T} (h : App.Run cfg acts log a)
    {j : App.Job} (hj : j ∈ a.jobs)
    (hm : (∃ b, j.made = .consumer b ∧ (b.consumerName = none ∨ b.topic = none ∨ b.subscription = none)) ∨
      ∃ b, j.made = .producer b ∧ (b.producerName = none ∨ b.topic = none)) :
    j.ended = some .panic ∧ j.client = none ∧ j.acts a.world.sys = none ∧ j.dropActs a.world.sys = [] := by
  have key : j.prog = .ret .panic ∧ j.client = none := by
    cases kind h j hj with
    | missing hp hc ht _ => exact ⟨hp, hc⟩
    | consumer b name topic subscription hb hm' hn hs =>
      rcases hm with ⟨b', h1, h2⟩ | ⟨b', h1, h2⟩
      · rw [hm'] at h1
        cases h1
        rw [hb.1, hb.2.1, hb.2.2] at h2
        simp at h2
      · rw [hm'] at h1; cases h1
    | producer b name topic hb hm' hn hs =>
      rcases hm with ⟨b', h1, h2⟩ | ⟨b', h1, h2⟩
      · rw [hm'] at h1; cases h1
      · rw [hm'] at h1
        cases h1
        rw [hb.1, hb.2] at h2
        simp at h2
    | call i p core evs hm' hc hp ht hs =>
      rcases hm with ⟨b', h1, h2⟩ | ⟨b', h1, h2⟩ <;> (rw [hm'] at h1; cases h1)
  refine ⟨by simp [Job.ended, key.1], key.2, by simp [Job.acts, key.1], by simp [Job.dropActs, key.2]⟩

namespace AppExample

open Neutron Neutron.World Neutron.App Frame Trace Proto EndToEndExample

set_option maxRecDepth 20000

/-! The consumer is there (`a7`).  Then a producer is to be made; its topic cannot be looked up. -/

def out (x : Outbound) : MessageCommand := match x.toCommand 0 with
  | .ok v => v
  | _ => connectedC

def maker : ProducerBuilder := (ProducerBuilder.new.withProducerName "p").withTopic "nowhere"

def part8 : List App.Act := [.start (.producer maker)] ++ joins 1 ++ asks 1 1
def lookup0 : Outbound := .lookupTopic ⟨0, "t"⟩
def subscribe0 : Outbound := .subscribe ⟨"t", "s", 0, 1, .shared⟩
def flow0 : Outbound := .flow ⟨0, 500⟩
def f1 : App.State UInt8 := after a7 part8
def f2 : App.State UInt8 := wrote f1 (bytes (out lookup0))
def f3 : App.State UInt8 := wrote f2 (bytes (out subscribe0))
def f4 : App.State UInt8 := wrote f3 (bytes (out flow0))
def f5 : App.State UInt8 := wrote f4 (bytes connectV)
def f6 : App.State UInt8 := heard f5 connectedC
def part9 : List App.Act := [.world (.sys .engConnectDone), .run 1] ++ asks 1 1
def f7 : App.State UInt8 := after f6 part9
def f8 : App.State UInt8 := heard f7 (found 2)
def part10 : List App.Act := gets 1 ++ [.run 1]
def f9 : App.State UInt8 := after f8 part10
/-- The engine looks at the producer's channel; the consumer acknowledges a message. -/
def part11 (id : MessageId) : List App.Act := [.world (.sys (.engOut 1 (.ok []) net0)), .start (.call 0 (Session.ack id)), .run 2, .run 2, .run 2]
def f10 (id : MessageId) : App.State UInt8 := after f9 (part11 id)

theorem fail1 : App.exec wcfg a7 part8 = some f1 := rfl
theorem fail2 : App.exec wcfg f1 [.world (.write b0 0 .ok)] = some f2 :=
  write_exec (c := ⟨lookup0, none, some (0, ⟨lookup0, some 1⟩)⟩) rfl trivial (by decide +kernel) rfl rfl rfl
theorem fail3 : App.exec wcfg f2 [.world (.write b0 0 .ok)] = some f3 :=
  write_exec (c := ⟨subscribe0, none, some (0, ⟨subscribe0, some 2⟩)⟩) rfl trivial (by decide +kernel) rfl rfl rfl
theorem fail4 : App.exec wcfg f3 [.world (.write b0 0 .ok)] = some f4 :=
  write_exec (c := ⟨flow0, none, some (0, ⟨flow0, none⟩)⟩) rfl trivial (by decide +kernel) rfl rfl rfl
theorem fail5 : App.exec wcfg f4 [.world (.write b0 0 .ok)] = some f5 :=
  write_exec (c := ⟨connectOut, some 1, some (1, ⟨.connect ⟨none, none, none⟩, some 3⟩)⟩) (q := []) rfl trivial (by decide +kernel) rfl rfl rfl
theorem fail6 : App.exec wcfg f5 (hear connectedC) = some f6 := hear_exec frame_connected (by decide) rfl rfl true rfl rfl rfl
theorem fail7 : App.exec wcfg f6 part9 = some f7 := rfl
theorem fail8 : App.exec wcfg f7 (hear (found 2)) = some f8 :=
  hear_exec (frame_found 2 (by decide) (by decide +kernel)) (by decide) rfl rfl true rfl rfl rfl
theorem fail9 : App.exec wcfg f8 part10 = some f9 := rfl
theorem fail10 (id : MessageId) : App.exec wcfg f9 (part11 id) = some (f10 id) := rfl

def write : List App.Act := [.world (.write b0 0 .ok)]

def failing : List App.Act := making ++ part8 ++ write ++ write ++ write ++ write ++ hear connectedC ++ part9 ++ hear (found 2) ++ part10

theorem failing_exec : App.exec wcfg (App.init wcfg) failing = some f9 :=
  exec_trans (exec_trans (exec_trans (exec_trans (exec_trans (exec_trans (exec_trans (exec_trans (exec_trans making_exec fail1)
    fail2) fail3) fail4) fail5) fail6) fail7) fail8) fail9

end AppExample

set_option maxRecDepth 20000 in
open AppExample EndToEndExample in
/-- The claim is false: a consumer is there and works; a producer's `connect` fails because its topic cannot be looked up, and nothing
else goes wrong (all sockets work, the application drops nothing).  The engine stops, and the consumer's next acknowledgement fails. -/
theorem C116_refuted (id : MessageId) : ∃ acts log a, App.Run wcfg acts log a ∧
    a.jobs.map (fun j => (j.live, j.client, j.ended)) =
      [(true, some 0, some (.ok ())), (true, some 1, some (.err .connectionFailed)), (true, some 0, some (.err .channelTerminated))] ∧
    a.world.sys.mode = .stopped := by
  obtain ⟨log, h⟩ := run_exec (as := []) .nil (exec_trans failing_exec (fail10 id))
  exact ⟨_, log, _, h, rfl, rfl⟩


end Neutron.Props
