import Verif.Props.Supply
import Verif.Props.AutoAckExample
import Verif.Props.OneStreamExample

/-!
# An execution for C148
-/

namespace Neutron.Props.SupplyExample

open Neutron.World Neutron.App Neutron.Sys EndToEndExample AppExample Session Trace ConfirmedExample Frame Proto
open ReturnsExample (hear_does write_does arrives)
open AutoAckExample

set_option maxRecDepth 20000

def isPoll : App.Act → Bool
  | .world (.poll _ _) => true
  | _ => false

def isBatch : App.Act → Bool
  | .world (.app (.spawn (.batch _))) => true
  | _ => false

theorem polls : all.map isPoll = (List.range 60).map (fun n => decide (n = 11 ∨ n = 19 ∨ n = 27 ∨ n = 39 ∨ n = 52)) := rfl
theorem no_batch : all.map isBatch = List.replicate 60 false := rfl
theorem read_end : readFor d18.world wcfg.me b0 = [ReceiveAllExample.x1] := rfl

theorem readFor_grow {a a' : App.State UInt8} {x : App.Act} (hs : App.step wcfg a x = some a') (i : Nat) (b : BrokerAddress) :
    readFor a.world i b <+: readFor a'.world i b := by
  have of : ∀ {y : World.Act}, World.step wcfg a.world y = some a'.world → readFor a.world i b <+: readFor a'.world i b := by
    intro y h
    have hrx := App.rx_step h b
    have : (a.world.rx b).out <+: (a'.world.rx b).out := by
      rw [hrx]
      generalize readEvents b [y] = es
      generalize a.world.rx b = s
      induction es generalizing s with
      | nil => exact List.prefix_refl _
      | cons e es ih =>
        refine List.IsPrefix.trans ?_ (ih _)
        cases e with
        | arrive r => exact List.prefix_refl _
        | poll =>
          by_cases hst : s.stopped = true
          · simp [Framed.ReadSide.step, hst]
          · rw [(poll_out (s := s) (by simpa using hst)).1]
            exact List.prefix_append _ _
    exact ((this.filterMap _).filterMap _).filter _
  rcases one_step hs with h | ⟨y, h⟩ | ⟨y, rfl, h⟩
  · rw [h]
  · exact of h
  · exact of h

theorem poll_is {a : App.State UInt8} {v : MessageCommand} (h : Framed.IsFrame (v, bytes v)) (ha : b0 ∈ a.world.sys.addrs) (r : Bool)
    (hf : (a.world.rx b0).framed = { buf := [], readable := r }) (hs : (a.world.rx b0).socket = []) :
    (Framed.pollNext ((AppExample.after a (arrives v)).world.rx b0).framed ((AppExample.after a (arrives v)).world.rx b0).socket).1 = .item v := by
  have hrx : (AppExample.after a (arrives v)).world.rx b0 = (a.world.rx b0).step (.arrive (.data (bytes v))) := by
    simp only [arrives, AppExample.after, App.exec, App.step, possible, App.free, if_true, App.induced, worldSteps, World.step, ha, jobsAfter,
      Option.getD_some]
  simp only [hrx, Framed.ReadSide.step, hf, hs, List.nil_append, poll_frame h r]

variable {σ : Nat → App.State UInt8} {acts : Nat → App.Act}

theorem at_read (h : Settled.Settles all d18 σ acts) {n : Nat} {a : App.State UInt8} {v v' : MessageCommand}
    (hf : Framed.IsFrame (v, bytes v)) (ha : b0 ∈ a.world.sys.addrs) (r : Bool)
    (hr : (a.world.rx b0).framed = { buf := [], readable := r }) (hs : (a.world.rx b0).socket = [])
    (hy : App.exec wcfg (App.init wcfg) (all.take n) = some a) (ht : all.take (n + 1) = all.take n ++ arrives v) (hn : n + 1 ≤ 60)
    (hp : (Framed.pollNext ((σ (n + 1)).world.rx b0).framed ((σ (n + 1)).world.rx b0).socket).1 = .item v') :
    v' = v ∧ σ (n + 1) = AppExample.after a (arrives v) := by
  have he := exec_trans hy (hear_does hf ha r hr hs).1
  rw [← ht] at he
  have := Option.some.inj (he.symm.trans (h.early (n + 1) hn))
  rw [← this, poll_is hf ha r hr hs] at hp
  cases hp
  exact ⟨rfl, this.symm⟩

theorem sent11 : (d11.world.tx b0).sent = bytes connectV ++ bytes (out lookupA) ++ bytes (out subscribeA) ++ bytes (out flowA) := by
  simp [d11, AppExample.wrote, OnTheWireExample.wroteTo]
  rfl

theorem subscribed11 : Received (d11.world.tx b0).sent (out subscribeA) := by
  refine ⟨[(connectV, bytes connectV), (out lookupA, bytes (out lookupA)), (out subscribeA, bytes (out subscribeA))], ⟨?_, bytes (out flowA), ?_⟩, by simp⟩
  · intro f hf
    simp only [List.mem_cons, List.not_mem_nil, or_false] at hf
    rcases hf with rfl | rfl | rfl
    · exact frame_out connectOut rfl trivial (by decide +kernel)
    · exact frame_out lookupA rfl trivial (by decide +kernel)
    · exact frame_out subscribeA rfl trivial (by decide +kernel)
  · rw [sent11]
    simp [Framed.stream]

theorem reads_to (h : Settled.Settles all d18 σ acts) {n m : Nat} (hnm : n ≤ m) : readFor (σ n).world wcfg.me b0 <+: readFor (σ m).world wcfg.me b0 := by
  induction m, hnm using Nat.le_induction with
  | base => exact List.prefix_refl _
  | succ m _ ih => exact ih.trans (readFor_grow (h.forever.steps m) _ _)

theorem at_end (h : Settled.Settles all d18 σ acts) : σ 60 = d18 := (Option.some.inj (y18.symm.trans (h.early 60 (by decide)))).symm

theorem read_late (h : Settled.Settles all d18 σ acts) {n : Nat} (hn : 60 ≤ n) : readFor (σ n).world wcfg.me b0 = [ReceiveAllExample.x1] := by
  induction n, hn using Nat.le_induction with
  | base => rw [at_end h]; exact read_end
  | succ m hm ih =>
    rcases reads_only (h.forever.steps m) wcfg.me b0 with h1 | ⟨_, _, h1, _⟩
    · rw [h1]; exact ih
    · rw [h.actions, List.getElem?_eq_none (by rw [all_length]; exact hm)] at h1
      cases h1

theorem read_one (h : Settled.Settles all d18 σ acts) (n : Nat) : readFor (σ n).world wcfg.me b0 <+: [ReceiveAllExample.x1] := by
  rw [← read_late h (n := n + 60) (by omega)]
  exact reads_to h (by omega)

theorem deliver_only (h : Settled.Settles all d18 σ acts) : DeliverOnlySubscribed σ acts := by
  intro n b answers v p ha hp hm
  have hact := h.actions n
  rw [ha] at hact
  have hg : (all.map isPoll)[n]? = some true ∧ all[n]? = some (.world (.poll b answers)) := by
    rw [List.getElem?_map]
    cases hx : all[n]? with
    | none => rw [hx] at hact; cases hact
    | some y => rw [hx] at hact; simp only [Option.getD_some] at hact; subst hact; exact ⟨rfl, rfl⟩
  have hn : n < 60 := by rw [← all_length]; exact (List.getElem?_eq_some_iff.mp hg.2).1
  have hn' := hg.1
  rw [polls, List.getElem?_map, List.getElem?_range hn] at hn'
  simp only [Option.map_some, Option.some.injEq, decide_eq_true_eq] at hn'
  have hg := hg.2
  have hb : b = b0 := by
    rcases hn' with rfl | rfl | rfl | rfl | rfl <;> cases hg <;> rfl
  subst hb
  rcases hn' with rfl | rfl | rfl | rfl | rfl
  · obtain ⟨rfl, _⟩ := at_read h frame_connected (by decide) false rfl rfl y2 rfl (by decide) hp
    exact (ProxyExample.no_message (by decide) (fun _ => False) _ hm).elim
  · obtain ⟨rfl, _⟩ := at_read h (frame_found 1 (by decide) (by decide +kernel)) (by decide) true rfl rfl y5 rfl (by decide) hp
    exact (ProxyExample.no_message (by decide) (fun _ => False) _ hm).elim
  · obtain ⟨rfl, _⟩ := at_read h frame_success (by decide) true rfl rfl y8 rfl (by decide) hp
    exact (ProxyExample.no_message (by decide) (fun _ => False) _ hm).elim
  · obtain ⟨rfl, hs⟩ := at_read h frame1 (by decide) true rfl rfl y12 rfl (by decide) hp
    rw [ProxyExample.message_for hm, hs]
    exact ⟨_, subscribed11, subscribes⟩
  · obtain ⟨rfl, _⟩ := at_read h frame_ack (by decide) true rfl rfl y16 rfl (by decide) hp
    exact (ProxyExample.no_message (by decide) (fun _ => False) _ hm).elim

theorem the_job : d11.jobs.map (fun j => (j.made, j.client, j.ended)) = [(.consumer builder, some wcfg.me, some (.ok ()))] := rfl

theorem meets (h : Settled.Settles all d18 σ acts) : App.Forever wcfg σ acts ∧ wcfg.app.permits = 250 ∧
    Sys.KeepWorking wcfg.sys (sysOf σ) (roundsOf wcfg σ acts) ∧ (∀ n, (sysOf σ n).nClients ≤ 2 ^ 64) ∧ (∀ n, World.Fits (σ n).world) ∧
    (∀ n, App.Offers (σ n)) ∧ Served wcfg σ acts wcfg.me ∧ App.Attended wcfg σ acts ∧ NoBatches acts ∧ DeliverOnlySubscribed σ acts ∧
    (∀ n, (σ n).world.app.live ≤ 251) ∧ (∀ m, 36 ≤ m → (σ m).world.app.alive 0) ∧ KeepsAsking σ acts ∧
    (∃ j ∈ (σ 35).jobs, j.made = .consumer builder ∧ j.client = some wcfg.me ∧ j.ended = some (.ok ())) ∧
    Sys.Fair wcfg.sys (sysOf σ) (roundsOf wcfg σ acts) (Sys.Act.servesReads b0) ∧
    (∃ v, Received ((σ 35).world.tx b0).sent v ∧ IsSubscribe v (UInt64.ofNat wcfg.me)) ∧
    (∀ n, ∀ x ∈ readFor (σ n).world wcfg.me b0, Consumer.isSingle x = true ∧ Consumer.decodable wcfg.app.decode x) ∧
    Supplies σ wcfg.me b0 1 ∧
    (∃ m, 1 ≤ (σ m).world.app.handedOut.length ∧
      (σ m).world.app.handedOut <+: (readFor (σ m).world wcfg.me b0).flatMap (Consumer.yields wcfg.app.decode)) ∧
    ∃ m, 35 ≤ m ∧ Given (σ m).world b0 (UInt64.ofNat wcfg.me) (σ 35).world.app.grants := by
  have hstop := never_stopped h.forever h.part.loops
  have hcf := consumer_forever h.forever hstop
  have hlate : ∀ n, 60 ≤ n → (σ n).world.app = d18.world.app := fun n hn => (h.late n (by rw [all_length]; exact hn)).2.2
  have hwork : Sys.KeepWorking wcfg.sys (sysOf σ) (roundsOf wcfg σ acts) := ⟨h.part.loops, h.part.regs, h.part.writes, h.part.works⟩
  have hfair : ∀ i, FairToReceiver wcfg σ acts i := by
    intro i hag
    obtain ⟨m, hm, a, hs⟩ := hag 60
    exfalso
    obtain ⟨_, hw, _⟩ := step_some hs
    simp only [App.induced, worldSteps] at hw
    cases hws : World.step wcfg (σ m).world (.app (.run i)) with
    | none => rw [hws] at hw; cases hw
    | some w' =>
      simp only [World.step] at hws
      rw [hlate m hm] at hws
      rw [no_runs i] at hws
      simp at hws
  have hA : App.Attended wcfg σ acts := by
    refine ⟨hfair, fun i hag => ?_⟩
    obtain ⟨n, hn, t, y, k, ht, hst, hk⟩ := hag 60
    have hk : k = 0 := by
      have : k < 1 := hk
      omega
    subst hk
    have := (in_plugin h).mp (⟨t, ht, hst⟩ : InPlugin (σ n) i 0 y)
    omega
  have hal : ∀ m, 36 ≤ m → (σ m).world.app.alive 0 := by
    intro m hm
    refine alive_back hcf (show m ≤ m + 60 by omega) ?_ ?_
    · have := is_fine h hm
      unfold ReceiveAllExample.fine at this
      simp only [Bool.and_eq_true, decide_eq_true_eq] at this
      show 0 < (σ m).world.app.tasks.length
      omega
    · show (σ (m + 60)).world.app.alive 0
      rw [hlate _ (by omega)]
      exact alive_end
  have hof : ∀ n, App.Offers (σ n) := by
    intro n j hj i p hm
    obtain ⟨k, hk, hkj⟩ := List.getElem_of_mem hj
    obtain ⟨j', hj', hm'⟩ := made_to h.forever (show n ≤ n + 60 by omega) (List.getElem?_eq_some_iff.mpr ⟨hk, hkj⟩)
    rw [(h.late (n + 60) (by rw [all_length]; omega)).2.1] at hj'
    have hmade : j'.made = .call i p := hm'.trans hm
    have : Start.call i p ∈ d18.jobs.map (·.made) := by rw [← hmade]; exact List.mem_map_of_mem (List.mem_of_getElem? hj')
    rw [show d18.jobs.map (·.made) = [.consumer builder, .call 0 (Session.ack theId)] from rfl] at this
    simp only [List.mem_cons, List.not_mem_nil, or_false] at this
    rcases this with h | h
    · cases h
    · cases h; exact .ack _
  have hnb : NoBatches acts := by
    intro n k he
    rw [h.actions] at he
    cases hx : all[n]? with
    | none => rw [hx] at he; cases he
    | some y =>
      rw [hx] at he
      simp only [Option.getD_some] at he
      subst he
      have hm : isBatch (.world (.app (.spawn (.batch k)))) ∈ all.map isBatch := List.mem_map_of_mem (List.mem_of_getElem? hx)
      rw [no_batch] at hm
      cases List.eq_of_mem_replicate hm
  have hlive : ∀ n, (σ n).world.app.live ≤ 251 := by
    intro n
    have h1 := (AutoAckExample.one_call h n).length_le
    have h2 : (σ n).world.app.live ≤ (σ n).world.app.tasks.length := List.countP_le_length
    simp at h1
    omega
  have hask : KeepsAsking σ acts := C148_asks h.forever h.part.loops hA hal
  have h35 : σ 35 = d11 := (Option.some.inj (y11.symm.trans (h.early 35 (by decide)))).symm
  have hjob : ∃ j ∈ (σ 35).jobs, j.made = .consumer builder ∧ j.client = some wcfg.me ∧ j.ended = some (.ok ()) := by
    have hm : (Start.consumer builder, some wcfg.me, some (Outcome.ok ())) ∈ d11.jobs.map (fun j => (j.made, j.client, j.ended)) := by
      rw [the_job]; exact List.mem_singleton.mpr rfl
    obtain ⟨j, hj, he⟩ := List.mem_map.mp hm
    simp only [Prod.mk.injEq] at he
    exact ⟨j, by rw [h35]; exact hj, he⟩
  have hsub : Received ((σ 35).world.tx b0).sent (out subscribeA) := by rw [h35]; exact subscribed11
  have hsingle : ∀ n, ∀ x ∈ readFor (σ n).world wcfg.me b0, Consumer.isSingle x = true ∧ Consumer.decodable wcfg.app.decode x := by
    intro n x hx
    have := (read_one h n).subset hx
    rw [List.mem_singleton] at this
    subst this
    exact ⟨rfl, rfl⟩
  have hM : Supplies σ wcfg.me b0 1 := fun n hn _ => ⟨n + 60, by omega, by rw [read_late h (n := n + 60) (by omega)]; exact hn⟩
  obtain ⟨j, hj, hm, hc, he⟩ := hjob
  exact ⟨h.forever, rfl, hwork, h.clients, end_fits h, hof, h.served _, hA, hnb, deliver_only h, hlive, hal, hask,
    ⟨j, hj, hm, hc, he⟩, h.part.reads b0, ⟨_, hsub, subscribes⟩, hsingle, hM,
    C148_supplied h.forever rfl hwork h.clients (end_fits h) hof (h.served _) hA hnb (deliver_only h) hlive hask hj hm hc he (h.part.reads b0)
      hsub subscribes hsingle hM,
    C148_granted h.forever rfl hwork h.clients (end_fits h) hof (h.served _) hask hj hm hc he hsub subscribes (Nat.le_refl _)⟩

/-- The hypotheses of `C148_supplied`, `C148_granted` and `C148_asks` are met: a consumer on which `consume` has been called, and a broker with
one message for it. -/
example : ∃ (σ : Nat → App.State UInt8) (acts : Nat → App.Act), App.Forever wcfg σ acts ∧ wcfg.app.permits = 250 ∧
    Sys.KeepWorking wcfg.sys (sysOf σ) (roundsOf wcfg σ acts) ∧ (∀ n, (sysOf σ n).nClients ≤ 2 ^ 64) ∧ (∀ n, World.Fits (σ n).world) ∧
    (∀ n, App.Offers (σ n)) ∧ Served wcfg σ acts wcfg.me ∧ App.Attended wcfg σ acts ∧ NoBatches acts ∧ DeliverOnlySubscribed σ acts ∧
    (∀ n, (σ n).world.app.live ≤ 251) ∧ (∀ m, 36 ≤ m → (σ m).world.app.alive 0) ∧ KeepsAsking σ acts ∧
    (∃ j ∈ (σ 35).jobs, j.made = .consumer builder ∧ j.client = some wcfg.me ∧ j.ended = some (.ok ())) ∧
    Sys.Fair wcfg.sys (sysOf σ) (roundsOf wcfg σ acts) (Sys.Act.servesReads b0) ∧
    (∃ v, Received ((σ 35).world.tx b0).sent v ∧ IsSubscribe v (UInt64.ofNat wcfg.me)) ∧
    (∀ n, ∀ x ∈ readFor (σ n).world wcfg.me b0, Consumer.isSingle x = true ∧ Consumer.decodable wcfg.app.decode x) ∧
    Supplies σ wcfg.me b0 1 ∧
    (∃ m, 1 ≤ (σ m).world.app.handedOut.length ∧
      (σ m).world.app.handedOut <+: (readFor (σ m).world wcfg.me b0).flatMap (Consumer.yields wcfg.app.decode)) ∧
    ∃ m, 35 ≤ m ∧ Given (σ m).world b0 (UInt64.ofNat wcfg.me) (σ 35).world.app.grants := by
  obtain ⟨σ, acts, h⟩ := Settled.settles all_exec at_rest written_all
  exact ⟨σ, acts, meets h⟩

end Neutron.Props.SupplyExample
