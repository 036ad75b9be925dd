import Verif.Props.AppAnswered
import Verif.Props.AppReachExample

/-!
# C128: an instance
-/

namespace Neutron.Props

open Neutron.World Neutron.App EndToEndExample AppExample Session Trace ConfirmedExample

set_option maxRecDepth 20000 in
/-- The hypotheses of `C128_send` are met: a producer has sent a message, the engine has taken it, and the receipt has arrived.  After one
poll and one step of the engine, the send returns `Ok` in two steps. -/
example : ∃ (acts : List App.Act) (log : List World.Act) (frames : List (MessageCommand × Bytes)) (j j2 : Job) (r : SendReceipt),
    App.Run wcfg acts log p12a ∧ App.Run wcfg (acts ++ [.world (.poll b0 none)]) (log ++ [.poll b0 none]) p13 ∧
    App.Run wcfg (acts ++ [.world (.poll b0 none)] ++ [.world (.sys (.engIn b0))]) (log ++ [.poll b0 none] ++ [.sys (.engIn b0)]) p13a ∧
    p12a.jobs[1]? = some j ∧ j.made = .call 0 (Session.send some [104]) ∧ .handed (.sendMessage [104]) (.ok 3) ∈ j.events ∧
    (p12a.world.sys.clients 0).queue = [] ∧ frames.length = 3 ∧ HasSent b0 log (frames ++ (receipt1, bytes receipt1) :: []) [] ∧
    (p12a.world.rx b0).out.length = 3 ∧ Inbound.ofCommand receipt1 = .ok (.sendReceipt r) ∧
    p12a.world.sys.issued[3]? = some (0, .send sent1) ∧ r.sequenceId = sent1.sequenceId ∧ (p13.world.sys.conns b0).outbox.length = 1 ∧
    p13a.jobs[1]? = some j2 ∧ j2.live = true ∧ p13a.world.sys.mode ≠ .stopped ∧ ¬ SequenceClash wcfg (log ++ [.poll b0 none] ++ [.sys (.engIn b0)]) p13a.world.sys 0 3 ∧
    (Sys.idsOf Sys.sequenceIdOf p13a.world.sys.issued 0).length ≤ 2 ^ 64 ∧
    (∃ n, n ≤ 2 ∧ ∃ log' a' j', App.Run wcfg (acts ++ [.world (.poll b0 none)] ++ [.world (.sys (.engIn b0))] ++ List.replicate n (.run 1)) log' a' ∧
      a'.jobs[1]? = some j' ∧ j'.ended = some (.ok ())) := by
  obtain ⟨acts, log, frames, hra, hrb, hrc, hlen, hall⟩ := receipt_read
  have hin : Inbound.ofCommand receipt1 = .ok (.sendReceipt ⟨0, 0, Neutron.mkMsg .messageIdData [(1, vU64 5), (2, vU64 1)]⟩) := rfl
  have hn3 : (p12a.world.rx b0).out.length = 3 := rfl
  have hiss : p13a.world.sys.issued = [(0, .connect ⟨none, none, none⟩), (0, lookup0), (0, registration0), (0, .send sent1)] := rfl
  have hcl : ∀ l, ¬ SequenceClash wcfg l p13a.world.sys 0 3 := by
    rintro l ⟨t', i', m, m', h1, h2, h3, h4, _⟩
    rw [hiss] at h3
    have := List.mem_of_getElem? h3
    simp only [List.mem_cons, Prod.mk.injEq, List.not_mem_nil, or_false] at this
    rcases this with h | h | h | h <;> exact h1 h.1
  have hids : (Sys.idsOf Sys.sequenceIdOf p13a.world.sys.issued 0).length ≤ 2 ^ 64 := by
    rw [hiss]; decide
  have hev : .handed (.sendMessage [104]) (.ok 3) ∈ (p12a.jobs[1]'(by decide)).events := by
    show _ ∈ [_]
    exact List.mem_singleton.mpr rfl
  have hmode : p13a.world.sys.mode ≠ .stopped := by
    show Sys.Mode.idle ≠ _
    intro h; cases h
  refine ⟨acts, log, frames, p12a.jobs[1]'(by decide), p13a.jobs[1]'(by decide), _, hra, hrb, hrc, rfl, rfl, hev, rfl, hlen, hall, hn3, hin, rfl,
    rfl, rfl, rfl, rfl, hmode, hcl _, hids, ?_⟩
  exact C128_send (more1 := [.world (.poll b0 none)]) (more2 := [.world (.sys (.engIn b0))]) hra hrb hrc (k := 1)
    (j := p12a.jobs[1]'(by decide)) (j2 := p13a.jobs[1]'(by decide)) (serialize := some) (m := [104]) rfl rfl hev rfl (by decide) hall
    (by rw [hn3, hlen]) hin (s := sent1) rfl rfl (by rw [hn3, hlen]; decide) (by decide) rfl rfl hmode (hcl _) hids

end Neutron.Props
