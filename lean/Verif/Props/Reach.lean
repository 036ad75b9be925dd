import Verif.Proof.WorldReach
import Verif.Props.AppReach
import Verif.Props.AppCalls

/-!
# C127: what a client hands over reaches its broker
-/

namespace Neutron.Props

open Neutron App World

variable {T : Type}

theorem passed_split {cfg : Sys.Cfg} {s s1 : Sys.State} {i : Nat} {pre : List Sys.ClientCmd} {cmd : Sys.ClientCmd} (hp : s.sent <+: s1.sent)
    (hc : (Sys.passedOn s.sent i).map (·.2) ++ pre ++ [cmd] <+: (Sys.passedOn s1.sent i).map (·.2)) (hr : Sys.Reachable cfg s1) :
    ∃ e b c, s1.sent = s.sent ++ e ∧ (b, c) ∈ e ∧ (b, cmd) ∈ Sys.passedOn s1.sent i ∧ Sys.Passes cfg cmd.out c.out := by
  obtain ⟨e, he⟩ := hp
  have hs : Sys.passedOn s1.sent i = Sys.passedOn s.sent i ++ Sys.passedOn e i := by
    rw [← he]; exact List.filterMap_append
  rw [hs, List.map_append, List.append_assoc, List.prefix_append_right_inj] at hc
  have hm : cmd ∈ (Sys.passedOn e i).map (·.2) := hc.subset (by simp)
  obtain ⟨⟨b, cmd'⟩, hpm, rfl⟩ := List.mem_map.mp hm
  obtain ⟨⟨b', c⟩, hc', hx⟩ := List.mem_filterMap.mp hpm
  have hso := (Sys.cmd hr).sentOk b' c (by rw [← he]; exact List.mem_append_right _ hc')
  simp only [] at hx
  split at hx
  · rename_i j cmd2 ho
    split at hx
    · cases hx
      rw [ho] at hso
      exact ⟨e, b, c, he.symm, hc', by rw [hs]; exact List.mem_append_right _ hpm, hso.2.2⟩
    · cases hx
  · cases hx

/-- C127.  A command is waiting in its client's channel.  Once the engine has taken it (and what was before it), it has been passed on
to the connection to some broker; and once that connection's task has then written as many commands as were waiting for it, the broker has
received the command, whole: provided the socket accepted what was written, the connection is still up, and the commands are valid ones
of ordinary size.  (A `Connect` arrives with the authentication data and the address to proxy to filled in.) -/
theorem C127_reaches {cfg : World.Cfg T} {log l1 l2 : List World.Act} {w w1 w2 : World T} (h : World.Run cfg log w)
    (h1 : worldSteps cfg w l1 = some w1) (h2 : worldSteps cfg w1 l2 = some w2) {i : Nat} (hi : i < w.sys.nClients)
    {pre post : List Sys.ClientCmd} {cmd : Sys.ClientCmd} (hq : (w.sys.clients i).queue = pre ++ cmd :: post)
    (htaken : pre.length < l1.countP (World.Act.takes i)) (hb : w1.sys.nClients ≤ 2 ^ 64) (hm : w1.sys.mode ≠ .stopped) (hv : Fits w2) :
    ∃ b, (b, cmd) ∈ Sys.passedOn w1.sys.sent i ∧
      (WritesSucceed b (l1 ++ l2) → (w2.sys.conns b).alive = true → (w1.sys.conns b).queue.length ≤ l2.countP (World.Act.writes b) →
        ∃ v now out, Received (w2.tx b).sent v ∧ Outbound.toCommand now out = .ok v ∧
          (out = cmd.out ∨ ∃ c auth c2, cmd.out = .connect c ∧ Sys.connectFor cfg.sys c auth = .ok c2 ∧ out = .connect c2)) := by
  have hr : Sys.Reachable cfg.sys w.sys := by obtain ⟨lg, hl, _⟩ := sys_log h; exact ⟨lg, hl⟩
  have hr1 := reachable_world hr h1
  have hr2 := reachable_world hr1 h2
  obtain ⟨as, ha, hn⟩ := continues_takes i l1 h1
  have hpass := C110_client hr hi hq ha (by omega) hb hm
  obtain ⟨e, b, c, he, hce, hcb, hcp⟩ := passed_split (sent_world h1) hpass hr1
  refine ⟨b, hcb, fun hok hl hw => ?_⟩
  have h12 : worldSteps cfg w (l1 ++ l2) = some w2 := by rw [worldSteps_append, h1]; exact h2
  have hR1 := worldSteps_run h h1
  have hR2 := worldSteps_run hR1 h2
  obtain ⟨d, d1, d2, _⟩ := writes_all (l1 ++ l2) h h12 hok hv hl
  obtain ⟨d', d1', _, d3'⟩ := writes_all l2 hR1 h2 (fun now io hm => hok now io (List.mem_append_right _ hm)) hv hl
  have hacc : Sys.sentTo w1.sys.sent b <+: Sys.sentTo w2.sys.sent b := by
    obtain ⟨x, hx⟩ := sent_world h2
    rw [← hx, Sys.sentTo_append]; exact List.prefix_append ..
  have f0 := ((Sys.conn hr).ok b).fifo
  have f1 := ((Sys.conn hr1).ok b).fifo
  have f2 := ((Sys.conn hr2).ok b).fifo
  have a0 := (Sys.conn hr).accepted b
  have a1 := (Sys.conn hr1).accepted b
  have a2 := (Sys.conn hr2).accepted b
  rw [← a1, ← a2, f2] at hacc
  have hlen : (w1.sys.conns b).accepted.length ≤ (w2.sys.conns b).processed.length := by
    rw [f1, d1']; simp only [List.length_append]; omega
  have hpre : (w1.sys.conns b).accepted <+: (w2.sys.conns b).processed :=
    List.prefix_of_prefix_length_le hacc (List.prefix_append ..) hlen
  rw [a1, he, Sys.sentTo_append, ← a0, f0, d1, List.append_assoc, List.prefix_append_right_inj] at hpre
  have hcd : c ∈ d := hpre.subset (List.mem_append_right _ (List.mem_filterMap.mpr ⟨(b, c), hce, by simp⟩))
  obtain ⟨v, now, hvn, hrec⟩ := received_written hR2 hv (b := b) (c := c) (by rw [d2]; exact List.mem_append_right _ hcd)
  refine ⟨v, now, c.out, hrec, hvn, ?_⟩
  unfold Sys.Passes at hcp
  split at hcp
  · rename_i k hk
    obtain ⟨auth, c2, e1, e2⟩ := hcp
    exact .inr ⟨k, auth, c2, hk, e1, e2⟩
  · exact .inl hcp

/-- A command that was passed on to a connection all of whose writes succeeded has been received once the connection has nothing left to
write. -/
theorem passed_received {cfg : World.Cfg T} {log : List World.Act} {w : World T} (h : World.Run cfg log w) {b : BrokerAddress}
    {c : Sys.ConnCmd} (hc : (b, c) ∈ w.sys.sent) (hok : WritesSucceed b log) (hl : (w.sys.conns b).alive = true)
    (hq : (w.sys.conns b).queue = []) (hv : Fits w) : ∃ v now, c.out.toCommand now = .ok v ∧ Received (w.tx b).sent v := by
  have hr : Sys.Reachable cfg.sys w.sys := by obtain ⟨lg, hl, _⟩ := sys_log h; exact ⟨lg, hl⟩
  obtain ⟨d, d1, d2, _⟩ := writes_all log (.nil (cfg := cfg)) (run_steps_of .nil (by simpa using h)) hok hv hl
  have f := ((Sys.conn hr).ok b).fifo
  rw [hq, List.append_nil, (Sys.conn hr).accepted b] at f
  refine received_written h hv ?_
  have h0 : ((World.init cfg).sys.conns b).processed = [] ∧ ((World.init cfg).sys.conns b).written = [] := ⟨rfl, rfl⟩
  rw [h0.1] at d1
  rw [h0.2] at d2
  rw [d2, ← d1, ← f]
  exact List.mem_filterMap.mpr ⟨(b, c), hc, by simp⟩

/-- C127, for the calls of the application: a request a call has handed over has been received by a broker, whole, once the engine has
taken what the client handed over and the connection to that broker has written what was passed to it (provided the engine runs, the
connection is up and its writes succeeded, and the commands are valid ones of ordinary size). -/
theorem C127_call {cfg : World.Cfg T} {acts : List App.Act} {log : List World.Act} {a : App.State T} (h : App.Run cfg acts log a)
    {j : Job} (hj : j ∈ a.jobs) {i : Nat} (hc : j.client = some i) {c : Call} {t : Nat} (hh : .handed c (.ok t) ∈ j.events)
    (hx : c.expectsResponse = true) (hm : a.world.sys.mode ≠ .stopped) (hn : a.world.sys.nClients ≤ 2 ^ 64)
    (hq : (a.world.sys.clients i).queue = []) (hv : Fits a.world) :
    ∃ b core, a.world.sys.issued[t]? = some (i, (Client.issue core c).2) ∧
      (WritesSucceed b log → (a.world.sys.conns b).alive = true → (a.world.sys.conns b).queue = [] →
        ∃ v now, Received (a.world.tx b).sent v ∧
          (((c = .connect ∨ ∃ p, c = .connectToProxy p) ∧ commandType v.command = 2) ∨
            IsCommand v (c.wire core).1 (c.wire core).2.1 (c.wire core).2.2 ∧ c.wirePayload core now v.payload)) := by
  have hw := run_world h
  have hr : Sys.Reachable cfg.sys a.world.sys := by obtain ⟨lg, hl, _⟩ := sys_log hw; exact ⟨lg, hl⟩
  obtain ⟨hi, ho⟩ := in_order h j hj i hc
  have ht : t ∈ requests j.events := List.mem_filterMap.mpr ⟨_, hh, by simp [hx]⟩
  obtain ⟨cmd, hcmd, hct⟩ := List.mem_filterMap.mp (ho.subset ht)
  have hiss := Sys.submitted_issued hr i hi cmd hcmd t hct
  obtain ⟨core, hcore⟩ : ∃ core : Client, a.world.sys.issued[t]? = some (i, (core.issue c).2) := by
    obtain ⟨ev, hev, he⟩ := List.mem_filterMap.mp hh
    split at he
    · rename_i core' ev'
      cases he
      exact (seen h j hj).events i hc _ _ hev hx
    · cases he
  rw [hcore] at hiss
  have hout : cmd.out = (core.issue c).2 := by
    have := (Prod.mk.inj (Option.some.inj hiss)).2
    exact this.symm
  have hsub := (Sys.cmd hr).submittedEq i hi (.inr hm)
  rw [hq, List.append_nil] at hsub
  have hpass : cmd ∈ (Sys.passedOn a.world.sys.sent i).map (·.2) := by
    rw [((Sys.cmd hr).routedEq hn hm i hi).1, Sys.routeAll_map_snd, hsub]; exact hcmd
  obtain ⟨⟨b, cmd'⟩, hpm, rfl⟩ := List.mem_map.mp hpass
  obtain ⟨⟨b', k⟩, hk, hkx⟩ := List.mem_filterMap.mp hpm
  have hso := (Sys.cmd hr).sentOk b' k hk
  simp only [] at hkx
  split at hkx
  · rename_i j' cmd2 horig
    split at hkx
    · cases hkx
      rw [horig] at hso
      refine ⟨b, core, hcore, fun h1 h2 h3 => ?_⟩
      obtain ⟨v, now, hvn, hrec⟩ := passed_received hw hk h1 h2 h3 hv
      refine ⟨v, now, hrec, ?_⟩
      have hp := hso.2.2
      unfold Sys.Passes at hp
      split at hp
      · rename_i k' hk'
        obtain ⟨auth, c2, _, e2⟩ := hp
        left
        rw [e2] at hvn
        simp only [] at hout
        rw [hk'] at hout
        constructor
        · cases c <;> simp_all [Client.issue]
        · cases hvn; exact commandType_base 2 _ _
      · right
        rw [hp] at hvn
        simp only [] at hout
        rw [hout] at hvn
        exact issued_command now core c hvn
    · cases hkx
  · cases hkx

end Neutron.Props
