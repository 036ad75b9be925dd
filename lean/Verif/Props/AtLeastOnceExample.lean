import Verif.Props.AtLeastOnce
import Verif.Props.OneStreamExample
import Verif.Props.AppAskedExample

/-!
# A consumer acknowledges the message it was given: a concrete case of C138
-/

namespace Neutron.Props

open Neutron Neutron.World Neutron.App

variable {T : Type}

/-- The calls made, in order. -/
def starts (acts : List App.Act) : List Start :=
  acts.filterMap fun x => match x with
    | .start c => some c
    | _ => none

theorem made_jobs {cfg : World.Cfg T} {acts : List App.Act} {log : List World.Act} {a : App.State T} (h : App.Run cfg acts log a) :
    starts acts = a.jobs.map (·.made) := by
  induction h with
  | nil => rfl
  | @snoc as log a a' x h hs ih =>
    obtain ⟨_, _, hj⟩ := step_some hs
    have hm : ∀ (k : Nat) (f : Job → Job), (∀ j, (f j).made = j.made) → (a.jobs.modify k f).map (·.made) = a.jobs.map (·.made) := by
      intro k f hf
      refine List.ext_getElem? fun n => ?_
      rw [List.getElem?_map, List.getElem?_map, List.getElem?_modify]
      cases a.jobs[n]? with
      | none => rfl
      | some j =>
        by_cases hk : k = n
        · simp [hk, hf]
        · simp [hk]
    unfold starts at ih ⊢
    rw [List.filterMap_append, ih, hj]
    cases x with
    | world _ => simp [jobsAfter]
    | start c => cases c <;> simp [jobsAfter, Start.job]
    | run k =>
      simp only [List.filterMap_cons, List.filterMap_nil, List.append_nil, jobsAfter]
      exact (hm k _ fun j => (after_made _ _ j).1).symm
    | drop k =>
      simp only [List.filterMap_cons, List.filterMap_nil, List.append_nil, jobsAfter]
      exact (hm k (fun j => { j with live := false }) fun j => rfl).symm

end Neutron.Props

namespace Neutron.Props.ProxyExample

open Neutron Neutron.World Proto Frame Trace EndToEndExample ConfirmedExample AppExample

def theAck : Outbound := .ack [⟨0, theId, 3⟩]
def c19 : App.State UInt8 := after c18 (.start (.call 0 (Session.ack theId)) :: asks 1 0)
def c20 : App.State UInt8 := wroteAt b1 c19 (bytes (out theAck))

set_option maxRecDepth 20000

theorem theAck_valid : theAck.Valid := ⟨by simp, by intro a ha; simp only [List.mem_singleton] at ha; subst ha; exact theId_valid⟩

theorem hop19 : App.exec wcfg c18 (.start (.call 0 (Session.ack theId)) :: asks 1 0) = some c19 := rfl
theorem hop20 : App.exec wcfg c19 writeThere = some c20 :=
  write_at (c := ⟨theAck, _, _⟩) (q := []) rfl theAck_valid (by decide +kernel) rfl rfl rfl

theorem given18 : c18.world.app.Given theId :=
  ⟨0, [⟨104, theId⟩], ⟨104, theId⟩, by
    have : c18.world.app.results = [(0, .ok [⟨104, theId⟩])] := rfl
    rw [this]; simp, by simp, rfl⟩

def written : List (MessageCommand × Bytes) := said ++ [(out theAck, bytes (out theAck))]

theorem begins : BeginsWith (c20.world.tx b1).sent written := by
  refine ⟨?_, [], ?_⟩
  · intro f hf
    rcases List.mem_append.mp hf with hf | hf
    · exact whole'.1 f hf
    · rw [List.mem_singleton] at hf
      subst hf
      exact frame_out theAck rfl theAck_valid (by decide +kernel)
  · have : (c20.world.tx b1).sent = (c16.world.tx b1).sent ++ [] ++ bytes (out theAck) := rfl
    rw [this]
    obtain ⟨_, rest, h⟩ := whole'
    have h0 : (c16.world.tx b1).sent = ((([] ++ [] ++ bytes connectW) ++ [] ++ bytes (out lookup1)) ++ [] ++ bytes (out subscription)) ++ [] ++
        bytes (out permits) := rfl
    rw [h0]
    simp [Framed.stream, said, written]

theorem fits20 {acts : List App.Act} {log : List World.Act} (hr : App.Run wcfg acts log c20) : Fits c20.world := by
  intro b c hc
  have all : ∀ (b : BrokerAddress) (l : List Outbound), (c20.world.sys.conns b).processed.map (·.out) = l → c ∈ (c20.world.sys.conns b).processed →
      (∀ x ∈ l, x.Valid ∧ x.volume + 300 < 4294967296) → c.out.Valid ∧ c.out.volume + 300 < 4294967296 := by
    intro b l h1 h2 h3
    exact h3 _ (h1 ▸ List.mem_map_of_mem (f := (·.out)) h2)
  by_cases hb : b = b0
  · subst hb
    refine all b0 [connectOut, lookup0] rfl hc ?_
    intro x hx
    simp only [List.mem_cons, List.not_mem_nil, or_false] at hx
    rcases hx with h | h <;> rw [h] <;> exact ⟨trivial, by decide +kernel⟩
  by_cases hb1 : b = b1
  · subst hb1
    refine all b1 [connectThrough, lookup1, subscription, permits, theAck] rfl hc ?_
    intro x hx
    simp only [List.mem_cons, List.not_mem_nil, or_false] at hx
    rcases hx with h | h | h | h | h <;> rw [h] <;> first | exact ⟨trivial, by decide +kernel⟩ | exact ⟨theAck_valid, by decide +kernel⟩
  · have h0 := (Sys.conn (App.reachable hr)).unused b (by show b ∉ [b0, b1]; simp [hb, hb1])
    rw [h0] at hc; cases hc

theorem isAck : App.IsAck (out theAck) 0 theId := by
  refine ⟨commandType_base .., mkMsg .commandAck [(1, vU64 0), (2, [.int 0]), (3, [.msg theId]), (8, vU64 3)], ?_, u64_of rfl rfl, ?_⟩
  · have : (out theAck).command = baseCommand 10 10 (mkMsg .commandAck [(1, vU64 0), (2, [.int 0]), (3, [.msg theId]), (8, vU64 3)]) := rfl
    rw [this]
    unfold getMsg baseCommand
    rw [getF_mk _ _ _ rfl]
    rfl
  · rw [getF_mk _ _ _ rfl]; rfl

/-- The hypotheses of C138 are met: the consumer got a message, and its acknowledgement is on the wire. -/
example : ∃ acts log, App.Run wcfg acts log c20 ∧ Fits c20.world ∧ c20.world.sys.nClients = 1 ∧ wcfg.me = 0 ∧
    App.AcksOnlyGiven wcfg acts ∧ Received (c20.world.tx b1).sent (out theAck) ∧ App.IsAck (out theAck) 0 theId := by
  obtain ⟨acts, log, hr, _⟩ := got18
  obtain ⟨log', hr'⟩ := App.run_exec hr (AppExample.exec_trans hop19 hop20)
  refine ⟨_, log', hr', fits20 hr', rfl, rfl, ?_, ⟨written, begins, by simp [written]⟩, isAck⟩
  have hm : starts acts = [.consumer builder] := made_jobs hr
  intro pre p post log0 a0 he hr0 id hid
  have key : pre = acts ∧ p = Session.ack theId := by
    simp only [List.cons_append] at he
    rcases List.append_eq_append_iff.mp he with ⟨l, h1, h2⟩ | ⟨l, h1, h2⟩
    · cases l with
      | nil => simp at h1 h2; exact ⟨h1, h2.1.2.symm⟩
      | cons x l =>
        exfalso
        simp only [List.cons_append, List.cons.injEq] at h2
        have := congrArg starts h2.2
        simp [starts, asks, writeThere] at this
    · cases l with
      | nil => simp at h1 h2; exact ⟨h1.symm, h2.1.2⟩
      | cons x l =>
        exfalso
        simp only [List.cons_append, List.cons.injEq] at h2
        rw [h1, ← h2.1] at hm
        unfold starts at hm
        rw [List.filterMap_append] at hm
        simp only [List.filterMap_cons] at hm
        have := List.append_eq_singleton_iff.mp hm
        simp at this
  obtain ⟨rfl, rfl⟩ := key
  obtain ⟨_, rfl⟩ := App.run_unique hr hr0
  have := (C138_calls (S := Unit) (fun _ => none) theId [] () [] id).1 hid
  rw [this]
  exact given18

end Neutron.Props.ProxyExample
