import Verif.Props.Undisturbed
import Verif.Props.AutoAckExample
import Verif.Props.AppFail

/-!
# C150: two consumers of one instance, and executions for its theorems
-/

namespace Neutron.Props.UndisturbedExample

open Neutron.World Neutron.App Neutron.Sys EndToEndExample AppExample Session Trace ConfirmedExample Frame Proto AutoAckExample

set_option maxRecDepth 20000

/-- Another consumer, of another topic. -/
def builder2 : ConsumerBuilder Unit := ((ConsumerBuilder.new.withConsumerName "d").withTopic "u").withSubscription "s"
def otherId : MessageId := Neutron.mkMsg .messageIdData [(1, vU64 9), (2, vU64 3)]

abbrev joins2 : List App.Act := [.start (.consumer builder2)] ++ joins 1 ++ asks 1 1
abbrev looks2 : List App.Act := [.world (.sys .engConnectDone), .run 1] ++ asks 1 1
abbrev subscribes2 : List App.Act := gets 1 ++ asks 1 1
abbrev flows2 : List App.Act := gets 1 ++ asks 1 1 ++ [.run 1]
/-- The first consumer's plugin calls `ack`; so does the second consumer's; the engine takes both. -/
abbrev both : List App.Act := .start (.call 0 (Session.ack theId)) :: asks 2 0 ++ .start (.call 1 (Session.ack otherId)) :: asks 3 1
/-- The first one's `ack` returns, and so does its plugin. -/
abbrev fails : List App.Act := [.run 2, .run 2, .world (.app (.offer 0 (.err .channelTerminated)))]

def lookupB : Outbound := .lookupTopic ⟨0, "u"⟩
def subscribeB : Outbound := .subscribe ⟨"u", "s", 1, 1, .shared⟩
def flowB : Outbound := .flow ⟨1, 500⟩

def e1 : App.State UInt8 := AppExample.after d14 joins2
def e2 : App.State UInt8 := wrote e1 (bytes connectV)
def e3 : App.State UInt8 := heard e2 connectedC
def e4 : App.State UInt8 := AppExample.after e3 looks2
def e5 : App.State UInt8 := wrote e4 (bytes (out lookupB))
def e6 : App.State UInt8 := heard e5 (found 1)
def e7 : App.State UInt8 := AppExample.after e6 subscribes2
def e8 : App.State UInt8 := wrote e7 (bytes (out subscribeB))
def e9 : App.State UInt8 := heard e8 (successC 1)
def e10 : App.State UInt8 := AppExample.after e9 flows2
def e11 : App.State UInt8 := wrote e10 (bytes (out flowB))
def e12 : App.State UInt8 := AppExample.after e11 both
def e13 : App.State UInt8 := AppExample.after e12 fails

theorem l1 : App.exec wcfg d14 joins2 = some e1 := rfl
theorem l2 : App.exec wcfg e1 write = some e2 :=
  write_exec (c := ⟨connectOut, some 1, some (1, ⟨.connect ⟨none, none, none⟩, some 3⟩)⟩) (q := []) rfl trivial (by decide +kernel) rfl rfl rfl
theorem l3 : App.exec wcfg e2 (AppExample.hear connectedC) = some e3 := hear_exec frame_connected (by decide) rfl rfl true rfl rfl rfl
theorem l4 : App.exec wcfg e3 looks2 = some e4 := rfl
theorem l5 : App.exec wcfg e4 write = some e5 :=
  write_exec (c := ⟨lookupB, none, some (1, ⟨lookupB, some 4⟩)⟩) (v := out lookupB) rfl trivial (by decide +kernel) rfl rfl rfl
theorem l6 : App.exec wcfg e5 (AppExample.hear (found 1)) = some e6 :=
  hear_exec (frame_found 1 (by decide) (by decide +kernel)) (by decide) rfl rfl true rfl rfl rfl
theorem l7 : App.exec wcfg e6 subscribes2 = some e7 := rfl
theorem l8 : App.exec wcfg e7 write = some e8 :=
  write_exec (c := ⟨subscribeB, none, some (1, ⟨subscribeB, some 5⟩)⟩) (v := out subscribeB) rfl trivial (by decide +kernel) rfl rfl rfl
theorem l9 : App.exec wcfg e8 (AppExample.hear (successC 1)) = some e9 := hear_exec frame_success (by decide) rfl rfl true rfl rfl rfl
theorem l10 : App.exec wcfg e9 flows2 = some e10 := rfl
theorem l11 : App.exec wcfg e10 write = some e11 :=
  write_exec (c := ⟨flowB, none, some (1, ⟨flowB, none⟩)⟩) (v := out flowB) rfl trivial (by decide +kernel) rfl rfl rfl
theorem l12 : App.exec wcfg e11 both = some e12 := rfl
theorem l13 : App.exec wcfg e12 fails = some e13 := rfl

theorem steps : App.exec wcfg (App.init wcfg) (all.take 46 ++ (joins2 ++ (write ++ (AppExample.hear connectedC ++ (looks2 ++ (write ++
    (AppExample.hear (found 1) ++ (subscribes2 ++ (write ++ (AppExample.hear (successC 1) ++ (flows2 ++ (write ++ (both ++ fails))))))))))))) =
    some e13 :=
  exec_trans y14 (exec_trans l1 (exec_trans l2 (exec_trans l3 (exec_trans l4 (exec_trans l5 (exec_trans l6 (exec_trans l7 (exec_trans l8
    (exec_trans l9 (exec_trans l10 (exec_trans l11 (exec_trans l12 l13))))))))))))

theorem made13 : e13.jobs.map (·.made) = [.consumer builder, .consumer builder2, .call 0 (Session.ack theId), .call 1 (Session.ack otherId)] := rfl
theorem ended13 : e13.jobs.map (fun j => (j.live, j.client, j.ended)) =
    [(true, some 0, some (.ok ())), (true, some 1, some (.ok ())), (true, some 0, some (.err .channelTerminated)), (true, some 1, none)] := rfl
theorem mode13 : e13.world.sys.mode = .idle := rfl
theorem offers13 : e13.world.app.offers = [(0, 0, theMessage, .err .channelTerminated)] := rfl
theorem stage12 : e12.world.app.tasks.map (fun t => (t.job, t.stage)) = [(.consume, .offering theMessage 0)] := rfl
theorem stage13 : e13.world.app.tasks.map (fun t => (t.job, t.stage)) = [(.consume, .ended)] := rfl
def isAckAll : App.Act → Bool
  | .start (.call _ _) => true
  | _ => false
def isCancel : App.Act → Bool
  | .world (.app (.cancel _)) => true
  | _ => false
theorem only_call : all.map isAckAll = (List.range 60).map (fun n => decide (n = 46)) := rfl
theorem not_cancelled : all.map isCancel = List.replicate 60 false := rfl
theorem received18 : received d18.world.sys wcfg.me = [ReceiveAllExample.x1] := rfl

theorem acks_at {n i : Nat} {p : Prog Unit} (h : all[n]?.getD (.world (.arrive b0 (.data [0]))) = .start (.call i p)) : n = 46 := by
  have hg : (all.map isAckAll)[n]? = some true := by
    rw [List.getElem?_map]
    cases hx : all[n]? with
    | none => rw [hx] at h; cases h
    | some y => rw [hx] at h; simp only [Option.getD_some] at h; subst h; rfl
  rw [only_call, List.getElem?_map] at hg
  obtain ⟨m, hm, he⟩ := Option.map_eq_some_iff.mp hg
  obtain ⟨_, hm⟩ := List.getElem?_eq_some_iff.mp hm
  rw [List.getElem_range] at hm
  subst hm
  simpa using he

/-- What a program returns when its only request fails. -/
def told : Prog Unit → Option (Outcome Unit)
  | .hand _ k => match k (.ok 0) with
    | .wait _ _ k' => match k' (.err .channelTerminated) with
      | .ret o => some o
      | _ => none
    | _ => none
  | _ => none

theorem no_ack_all {n i : Nat} {ids : List MessageId} (h : all[n]?.getD (.world (.arrive b0 (.data [0]))) = .start (.call i (Session.ackAll ids))) : False := by
  have hn := acks_at h
  subst hn
  rw [the_ack] at h
  simp only [Option.getD_some] at h
  injection h with h
  injection h with _ h
  have h := congrArg told h
  cases ids with
  | nil => cases h
  | cons x ids => cases ids with
    | nil => cases h
    | cons y ids => cases h

theorem no_cancel {n : Nat} (h : all[n]?.getD (.world (.arrive b0 (.data [0]))) = .world (.app (.cancel 0))) : False := by
  cases hx : all[n]? with
  | none => rw [hx] at h; cases h
  | some y =>
    rw [hx] at h
    simp only [Option.getD_some] at h
    subst h
    have hm : isCancel (.world (.app (.cancel 0))) ∈ all.map isCancel := List.mem_map_of_mem (List.mem_of_getElem? hx)
    rw [not_cancelled] at hm
    cases List.eq_of_mem_replicate hm

theorem delivered_more {acts : Nat → Option Consumer.Act} {n : Nat} (k : Nat) {x : Message} (hx : x ∈ Consumer.delivered (Consumer.history [] acts n)) :
    x ∈ Consumer.delivered (Consumer.history [] acts (n + k)) := by
  induction k with
  | zero => exact hx
  | succ k ih =>
    show x ∈ Consumer.delivered (Consumer.history [] acts (n + k) ++ (acts (n + k)).toList)
    rw [Consumer.delivered_append]
    exact List.mem_append_left _ ih

theorem received_more {σ : Nat → App.State UInt8} {acts : Nat → App.Act} (h : App.Forever wcfg σ acts)
    (hm : ∀ n, (σ n).world.sys.mode ≠ .stopped) {n : Nat} (k : Nat) {x : Message} (hx : x ∈ received (sysOf σ n) wcfg.me) :
    x ∈ received (sysOf σ (n + k)) wcfg.me := by
  by_cases hi : wcfg.me < (σ n).world.sys.nClients
  · rw [← delivered_received h hm hi] at hx
    exact delivered_in h hm (delivered_more k hx)
  · exfalso
    obtain ⟨as, log, hr⟩ := run_at h n
    obtain ⟨e1, e2⟩ := Sys.blank (App.reachable hr) wcfg.me (by omega)
    simp only [received, sysOf, e1, e2] at hx
    cases hx

theorem made14 : d14.jobs.map (·.made) = [.consumer builder] := rfl
theorem jobs18 : d18.jobs.map (·.made) = [.consumer builder, .call 0 (Session.ack theId)] := rfl

theorem in_turn {σ : Nat → App.State UInt8} {acts : Nat → App.Act} (h : Settled.Settles all d18 σ acts) : AcksInTurn σ acts := by
  refine ⟨fun n i ids he => ?_, fun n i id he j hj ⟨i', id', hm⟩ => ?_⟩
  · rw [h.actions] at he
    exact no_ack_all he
  · rw [h.actions] at he
    have hn := acks_at he
    subst hn
    have hs := h.early 46 (by decide)
    rw [← Option.some.inj (y14.symm.trans hs)] at hj
    have := List.mem_map_of_mem (f := (·.made)) hj
    rw [made14, hm] at this
    simp at this

theorem never_cancelled {σ : Nat → App.State UInt8} {acts : Nat → App.Act} (h : Settled.Settles all d18 σ acts) : ∀ m, acts m ≠ .world (.app (.cancel 0)) := by
  intro m he
  rw [h.actions] at he
  exact no_cancel he

/-- The plugin calls `ack`; the application calls `ack` on the same consumer; the first call fails, and the plugin returns its error. -/
abbrev refused : List App.Act := acks ++ .start (.call 0 (Session.ack otherId)) :: asks 2 0 ++ [.run 1, .run 1, .world (.app (.offer 0 (.err .channelTerminated)))]
abbrev bad : List App.Act := all.take 46 ++ refused
def f1 : App.State UInt8 := AppExample.after d14 refused
def f0 : App.State UInt8 := AppExample.after d14 (refused.take 10)
theorem bad1 : App.exec wcfg d14 refused = some f1 := rfl
theorem bad0 : App.exec wcfg d14 (refused.take 10) = some f0 := rfl
theorem bad_exec : App.exec wcfg (App.init wcfg) bad = some f1 := exec_trans y14 bad1
theorem bad56 : App.exec wcfg (App.init wcfg) (bad.take 56) = some f0 := exec_trans y14 bad0
theorem bad_length : bad.length = 57 := rfl
theorem bad_vec : f1.world.sys.vec = [0] := rfl
theorem bad_mode : f1.world.sys.mode = .idle := rfl
theorem bad_addrs : f1.world.sys.addrs = [b0] := rfl
theorem bad_looks : looks sees d14 refused = List.replicate 11 (some (theMessage, 0), true) := rfl
theorem bad_end : nothing f1 = true := rfl
theorem bad_jobs : f1.jobs.map (fun j => (j.acts f1.world.sys).isSome) = [false, false, false] := rfl
theorem bad_ended : f0.jobs[1]?.map (·.ended) = some (some (.err .channelTerminated)) := rfl
theorem bad_tasks : f1.world.app.tasks.length = 1 := rfl
theorem bad_offers : bad.map isOffer = (List.range 57).map (fun n => decide (n = 56)) := rfl
theorem bad_offer : bad[56]? = some (.world (.app (.offer 0 (.err .channelTerminated)))) := rfl
theorem bad_ack : bad[46]? = some (.start (.call 0 (Session.ack theId))) := rfl
theorem bad_drops : bad.map ReturnsExample.isDrop = List.replicate 57 false := rfl

/-- An execution that goes on for ever after that. -/
structure Refuses (σ : Nat → App.State UInt8) (acts : Nat → App.Act) : Prop where
  forever : App.Forever wcfg σ acts
  early : ∀ n, n ≤ bad.length → App.exec wcfg (App.init wcfg) (bad.take n) = some (σ n)
  late : ∀ n, bad.length ≤ n → (σ n).world.sys = f1.world.sys ∧ (σ n).jobs = f1.jobs ∧ (σ n).world.app = f1.world.app
  actions : ∀ n, acts n = bad[n]?.getD (.world (.arrive b0 (.data [0])))
  running : ∀ n, (sysOf σ n).mode ≠ .stopped
  fair : ∀ k, FairTo wcfg σ acts k

theorem refuses : ∃ σ acts, Refuses σ acts := by
  obtain ⟨σ, acts, hF, hσ, hσN, hacts⟩ := app_stutter (b := b0) bad_exec (by rw [bad_addrs]; simp) (ReceiveAllExample.only_client bad_exec bad_vec)
  have hS := app_forever hF
  refine ⟨σ, acts, hF, hσ, hσN, hacts, fun n hm => ?_, fun k hag => ?_⟩
  · have := path_stopped (continues_to hS (by omega : n ≤ n + bad.length)) hm
    rw [show sysOf σ (n + bad.length) = f1.world.sys from (hσN _ (by omega)).1, bad_mode] at this
    cases this
  · obtain ⟨m, hm, a, hs⟩ := hag bad.length
    exfalso
    have hp := (step_some hs).1
    simp only [App.possible, (hσN m hm).1, (hσN m hm).2.1] at hp
    cases hj : f1.jobs[k]? with
    | none => rw [hj] at hp; cases hp
    | some j =>
      have : (j.acts f1.world.sys).isSome = false := by
        have hmem : (j.acts f1.world.sys).isSome ∈ f1.jobs.map (fun j => (j.acts f1.world.sys).isSome) :=
          List.mem_map_of_mem (f := fun j : Job => (j.acts f1.world.sys).isSome) (List.mem_of_getElem? hj)
        rw [bad_jobs] at hmem
        simpa using hmem
      rw [hj] at hp
      simp [this] at hp

theorem bad_outside {σ : Nat → App.State UInt8} {acts : Nat → App.Act} (h : Refuses σ acts) {n : Nat} (hn : n < 46 ∨ 56 < n) : nothing (σ n) = true := by
  rcases hn with hn | hn
  · obtain ⟨σ', acts', h'⟩ := Settled.settles all_exec at_rest written_all
    have h1 := h.early n (by rw [bad_length]; omega)
    have h2 := h'.early n (by rw [all_length]; omega)
    rw [show bad.take n = all.take n by
      rw [List.take_append_of_le_length (by rw [List.length_take, all_length]; omega), List.take_take, Nat.min_eq_left (by omega)], h2] at h1
    rw [← Option.some.inj h1]
    exact outside h' (.inl hn)
  · have := bad_end
    unfold nothing sees at this ⊢
    rw [(h.late n (by rw [bad_length]; exact hn)).2.2]
    exact this

theorem bad_inside {σ : Nat → App.State UInt8} {acts : Nat → App.Act} (h : Refuses σ acts) {n : Nat} (h1 : 46 ≤ n) (h2 : n ≤ 56) :
    sees (σ n) = (some (theMessage, 0), true) := by
  obtain ⟨j, rfl⟩ : ∃ j, n = 46 + j := ⟨n - 46, by omega⟩
  have hs := h.early (46 + j) (by rw [bad_length]; omega)
  rw [show bad.take (46 + j) = all.take 46 ++ refused.take j from by
    rw [List.take_append, List.take_of_length_le (by rw [List.length_take, all_length]; omega), List.length_take, all_length]
    congr 2
    simp, AppExample.exec_append, y14, Option.bind_some] at hs
  exact look_at _ bad_looks (by show j < 11; omega) hs

theorem bad_in {σ : Nat → App.State UInt8} {acts : Nat → App.Act} (h : Refuses σ acts) {n i : Nat} {y : Consumer.Received UInt8} :
    InPlugin (σ n) i 0 y ↔ 46 ≤ n ∧ n ≤ 56 ∧ i = 0 ∧ y = theMessage := by
  constructor
  · rintro ⟨t, ht, hst⟩
    have hi0 : i = 0 := by
      have hcf := consumer_forever h.forever h.running
      have := jobs_grow (past := []) (acts := onConsumer σ acts) (show n ≤ n + 57 by omega)
      rw [← Consumer.task_jobs (hcf.run n), ← Consumer.task_jobs (hcf.run (n + 57))] at this
      rw [(h.late (n + 57) (by rw [bad_length]; omega)).2.2] at this
      have h1 := (List.getElem?_eq_some_iff.mp ht).1
      have h2 := this.length_le
      simp only [List.length_map, bad_tasks] at h2
      omega
    subst hi0
    by_cases hn : n < 46 ∨ 56 < n
    · have := bad_outside h hn
      unfold nothing sees at this
      rw [ht] at this
      simp [hst] at this
    · have := bad_inside h (show 46 ≤ n by omega) (show n ≤ 56 by omega)
      unfold sees at this
      rw [ht] at this
      simp only [hst, Prod.mk.injEq, Option.some.injEq, and_true] at this
      exact ⟨by omega, by omega, rfl, this.1⟩
  · rintro ⟨h1, h2, rfl, rfl⟩
    have := bad_inside h h1 h2
    unfold sees at this
    simp only [Prod.mk.injEq] at this
    have := this.1
    split at this
    · rename_i t ht
      split at this
      · rename_i y p hst
        cases this
        exact ⟨t, ht, hst⟩
      · cases this
    · cases this

theorem bad_ack_of {σ : Nat → App.State UInt8} {acts : Nat → App.Act} (h : Refuses σ acts) : AckOf wcfg σ acts 0 0 theMessage 1 56 := by
  refine ⟨46, by omega, ?_, ?_, fun m h1 h2 => (bad_in h).mpr ⟨h1, h2, rfl, rfl⟩⟩
  · rw [h.actions, bad_ack]; rfl
  · have := h.early 46 (by decide)
    rw [← Option.some.inj (y14.symm.trans this)]
    exact jobs14

theorem bad_auto_acks {σ : Nat → App.State UInt8} {acts : Nat → App.Act} (h : Refuses σ acts) : AutoAcks wcfg σ acts 0 := by
  have hoffer : acts 56 = .world (.app (.offer 0 (.err .channelTerminated))) := by rw [h.actions, bad_offer]; rfl
  refine ⟨fun n i y hin => ?_, fun n i y k ha => .inr ⟨fun m he => ?_, h.fair k⟩, fun n i y k ha _ => ?_, fun n i y r hin ha => ?_⟩
  · obtain ⟨h1, h2, rfl, rfl⟩ := (bad_in h).mp hin
    exact .inr ⟨1, 56, h2, bad_ack_of h⟩
  · rw [h.actions] at he
    cases hx : bad[m]? with
    | none => rw [hx] at he; cases he
    | some y =>
      rw [hx] at he
      simp only [Option.getD_some] at he
      subst he
      have hm : ReturnsExample.isDrop (.drop k) ∈ bad.map ReturnsExample.isDrop := List.mem_map_of_mem (List.mem_of_getElem? hx)
      rw [bad_drops] at hm
      cases List.eq_of_mem_replicate hm
  · obtain ⟨n', h1, _, _, h2⟩ := ha
    obtain ⟨_, h3, rfl, rfl⟩ := (bad_in h).mp (h2 n h1 (Nat.le_refl n))
    exact .inr ⟨56, _, h3, hoffer⟩
  · obtain ⟨h1, h2, rfl, rfl⟩ := (bad_in h).mp hin
    have hn : n = 56 := by
      rw [h.actions] at ha
      have hg : (bad.map isOffer)[n]? = some true := by
        rw [List.getElem?_map]
        cases hx : bad[n]? with
        | none => rw [hx] at ha; cases ha
        | some y => rw [hx] at ha; simp only [Option.getD_some] at ha; subst ha; rfl
      rw [bad_offers, List.getElem?_map, List.getElem?_range (by omega)] at hg
      simpa using hg
    subst hn
    rw [hoffer] at ha
    cases ha
    have hs := h.early 56 (by decide)
    obtain ⟨j, hj, he⟩ := Option.map_eq_some_iff.mp bad_ended
    exact ⟨1, j, bad_ack_of h, by rw [← Option.some.inj (bad56.symm.trans hs)]; exact hj, he⟩

end Neutron.Props.UndisturbedExample


namespace Neutron.Props

open Neutron.World Neutron.App Neutron.Sys EndToEndExample AppExample Session Trace ConfirmedExample Frame Proto AutoAckExample UndisturbedExample

/-- **C150.** Without that, a healthy instance can end a `consume`: two consumers of the same instance are connected; each one's auto-ack plugin
has called `ack` and is waiting; the engine has taken both, has dropped the first one's resolver, and is running on.  The first `ack` fails
with `ChannelTerminated`, its plugin returns that, and the first consumer's `consume` has ended. -/
theorem C150_refuted : ∃ acts log a, App.Run wcfg acts log a ∧
    a.jobs.map (·.made) = [.consumer builder, .consumer builder2, .call 0 (Session.ack theId), .call 1 (Session.ack otherId)] ∧
    a.jobs.map (fun j => (j.live, j.client, j.ended)) =
      [(true, some 0, some (.ok ())), (true, some 1, some (.ok ())), (true, some 0, some (.err .channelTerminated)), (true, some 1, none)] ∧
    a.world.app.offers = [(0, 0, theMessage, .err .channelTerminated)] ∧
    a.world.app.tasks.map (fun t => (t.job, t.stage)) = [(.consume, .ended)] ∧ a.world.sys.mode = .idle := by
  obtain ⟨log, hr⟩ := run_exec (as := []) .nil steps
  exact ⟨_, log, e13, hr, made13, ended13, offers13, stage13, mode13⟩

/-- The hypotheses of `C150_in_turn`, `C150_goes_on` and `C150_acknowledged` are met, and so are their conclusions, by the execution in which the
plugin acknowledges a message that arrives. -/
example : ∃ (σ : Nat → App.State UInt8) (acts : Nat → App.Act), App.Forever wcfg σ acts ∧ (∀ n, App.Offers (σ n)) ∧ AcksInTurn σ acts ∧
    AutoAcks wcfg σ acts 0 ∧ (∀ m, acts m ≠ .world (.app (.cancel 0))) ∧
    (∀ n, ∀ x ∈ received (sysOf σ n) wcfg.me, ∀ o ∈ Consumer.yields wcfg.app.decode x, ∃ y, o = .ok y) ∧ (∀ m, 36 ≤ m → (σ m).world.app.alive 0) ∧
    Acknowledged wcfg σ acts 0 0 theMessage := by
  obtain ⟨σ, acts, h⟩ := Settled.settles all_exec at_rest written_all
  have hturn := in_turn h
  have hcan := never_cancelled h
  have hdec : ∀ n, ∀ x ∈ received (sysOf σ n) wcfg.me, ∀ o ∈ Consumer.yields wcfg.app.decode x, ∃ y, o = .ok y := by
    intro n x hx o ho
    have hx : x ∈ received (sysOf σ (n + 60)) wcfg.me := received_more h.forever (never_stopped h.forever h.part.loops) 60 hx
    have hs : sysOf σ (n + 60) = d18.world.sys := (h.late (n + 60) (by rw [all_length]; omega)).1
    rw [hs, received18] at hx
    obtain rfl := List.mem_singleton.mp hx
    rw [yields1] at ho
    exact ⟨_, List.mem_singleton.mp ho⟩
  have hx : ReceiveAllExample.x1 ∈ received (sysOf σ 40) wcfg.me ++ underway (sysOf σ 40) wcfg.me b0 := by
    have := h.early 40 (by decide)
    unfold sysOf
    rw [← Option.some.inj (y13.symm.trans this), underway13]
    exact List.mem_singleton.mpr rfl
  have hack := C150_acknowledged h.forever h.part h.clients (end_fits h) (h.served wcfg.me) (offers_on h) hturn (show 0 < wcfg.app.plugins by decide)
    (auto_acks h) (fun p' hp' hne => by exact absurd (show p' < 1 from hp') (by omega)) (fair_calls h) (AutoAckExample.one_call h) hcan (attached_on h)
    (alive_on h 36 (Nat.le_refl _)) hdec (show 36 ≤ 40 by omega) hx (y := theMessage) (by rw [yields1]; exact List.mem_singleton.mpr rfl)
  exact ⟨σ, acts, h.forever, offers_on h, hturn, auto_acks h, hcan, hdec, alive_on h, hack.1⟩

/-- The hypotheses of `C150_refusal` are met: the application calls `ack` on the consumer while the plugin waits for its own. -/
example : ∃ (σ : Nat → App.State UInt8) (acts : Nat → App.Act), App.Forever wcfg σ acts ∧ (∀ n, (sysOf σ n).mode ≠ .stopped) ∧ AutoAcks wcfg σ acts 0 ∧
    InPlugin (σ 56) 0 0 theMessage ∧ acts 56 = .world (.app (.offer 0 (.err .channelTerminated))) := by
  obtain ⟨σ, acts, h⟩ := UndisturbedExample.refuses
  exact ⟨σ, acts, h.forever, h.running, bad_auto_acks h, (bad_in h).mpr ⟨by omega, by omega, rfl, rfl⟩, by rw [h.actions, bad_offer]; rfl⟩

end Neutron.Props
