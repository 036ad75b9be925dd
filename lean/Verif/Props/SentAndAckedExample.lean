import Verif.Props.SentAndAcked
import Verif.Props.PassedOnExample
import Verif.Props.UndisturbedExample

/-!
# Executions for C151
-/

namespace Neutron.Props

open Neutron.World Neutron.App Neutron.Sys EndToEndExample AppExample Session Trace ConfirmedExample Frame Proto AutoAckExample
open ReturnsExample (whole whole_exec whole_length)

/-- The hypotheses of `C151_goes_on`, `C151_acknowledged`, `C151_all` and `C151_send` are met (those of `C151_send_all` differ in the program called): a
producer on which `send` is called, a consumer with the auto-ack plugin on which `consume` is called, and a broker between them.  The message
is handed to the consumer's application, and its `ACK` is received. -/
example : ∃ (σP σ : Nat → App.State UInt8) (actsP acts : Nat → App.Act) (call : Job),
    App.Forever wcfg σP actsP ∧ (∀ n, (sysOf σP n).nClients ≤ 2 ^ 64) ∧ (∀ n, World.Fits (σP n).world) ∧
    SendsOnly σP 0 (fun p => (wcfg.app.decode p).isSome) ∧ (∀ n, App.Offers (σP n)) ∧
    Sys.KeepWorking wcfg.sys (sysOf σP) (roundsOf wcfg σP actsP) ∧ Served wcfg σP actsP 0 ∧
    (∃ r, Received ((σP 41).world.tx b0).sent r ∧ NamesClient r 0) ∧
    ((σP 32).jobs[1]? = some call ∧ call.live = true ∧ (∀ m, actsP m ≠ .drop 1) ∧ FairTo wcfg σP actsP 1 ∧
      call.made = .call 0 (Session.send some [104]) ∧ wcfg.app.decode [104] = some 104) ∧
    App.Forever wcfg σ acts ∧ wcfg.app.permits = 250 ∧
    DoTheirPart wcfg.sys (sysOf σ) (roundsOf wcfg σ acts) ∧ (∀ n, (sysOf σ n).nClients ≤ 2 ^ 64) ∧ (∀ n, World.Fits (σ n).world) ∧
    (∀ n, App.Offers (σ n)) ∧ Served wcfg σ acts wcfg.me ∧ DeliverOnlySubscribed σ acts ∧ Consumes wcfg σ acts 0 36 ∧
    (∃ j ∈ (σ 36).jobs, j.made = .consumer builder ∧ j.client = some wcfg.me ∧ j.ended = some (.ok ())) ∧
    (∃ v, Received ((σ 36).world.tx b0).sent v ∧ IsSubscribe v (UInt64.ofNat wcfg.me)) ∧
    PassesOn σP b0 0 σ b0 wcfg.me ∧
    ∃ id n' m w, .ok ⟨104, id⟩ ∈ (σ n').world.app.handedOut ∧ Received ((σ m).world.tx b0).sent w ∧ IsAck w (UInt64.ofNat wcfg.me) id := by
  obtain ⟨σ, acts, h⟩ := Settled.settles all_exec at_rest written_all
  obtain ⟨σP, actsP, hP⟩ := Settled.settles whole_exec PassedOnExample.at_rest PassedOnExample.written_all
  obtain ⟨call, l0, l1⟩ := Option.map_eq_some_iff.mp (ReturnsExample.send_called (by rw [← whole_length]; exact hP.early))
  simp only [Prod.mk.injEq] at l1
  have hwP : Sys.KeepWorking wcfg.sys (sysOf σP) (roundsOf wcfg σP actsP) := ⟨hP.part.loops, hP.part.regs, hP.part.writes, hP.part.works⟩
  have hofP : ∀ n, App.Offers (σP n) := fun n j hj i p hm => by rw [PassedOnExample.made_of hP hj hm]; exact .send _ _
  have hdrop : ∀ m k, actsP m ≠ .drop k := by
    intro m k he
    have := ReturnsExample.not_drop m
    rw [← hP.actions, he] at this
    cases this
  have hC : Consumes wcfg σ acts 0 36 := ⟨AutoAckExample.one_call h, alive_on h 36 (Nat.le_refl _), UndisturbedExample.never_cancelled h, fair_calls h, by decide,
    auto_acks h, (fun p' hp' hne => by exact absurd (show p' < 1 from hp') (by omega)), UndisturbedExample.in_turn h⟩
  obtain ⟨c1, c2, c3, c4, c5, c6, c7, c8, c9, c10, c11, _, c13, ⟨j, k1, k2, k3, k4⟩, c15, ⟨v, c16, c17⟩, _⟩ := SupplyExample.meets h
  have k1' := ended_job_to h.forever (show 35 ≤ 36 by omega) k1 k4
  have c16' := received_to h.forever (show 35 ≤ 36 by omega) c16
  exact ⟨σP, σ, actsP, acts, call, hP.forever, hP.clients, PassedOnExample.fits hP, PassedOnExample.sends_only hP, hofP, hwP, hP.served 0,
    ⟨_, PassedOnExample.registered hP, PassedOnExample.names⟩,
    ⟨l0, l1.1, fun m => hdrop m 1, hP.fair 1, l1.2.2, rfl⟩, c1, c2, h.part, c4, c5, c6, c7, c10, hC, ⟨j, k1', k2, k3, k4⟩, ⟨v, c16', c17⟩,
    PassedOnExample.passes hP h,
    C151_send hP.forever hP.clients (PassedOnExample.fits hP) (by decide) (PassedOnExample.sends_only hP) hofP hwP (hP.served 0) (PassedOnExample.registered hP)
      PassedOnExample.names c1 c2 h.part c4 c5 c6 c7 c10 hC k1' k2 k3 k4 c16' c17 (PassedOnExample.passes hP h) l0 l1.1 (fun m => hdrop m 1) (hP.fair 1) l1.2.2
      rfl rfl⟩

end Neutron.Props
