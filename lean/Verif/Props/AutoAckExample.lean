import Verif.Props.AutoAck
import Verif.Props.SettledExample
import Verif.Props.AppAskedExample
import Verif.Props.AppOrderExample

/-!
# An execution for C147
-/

namespace Neutron.Props.AutoAckExample

open Neutron.World Neutron.App Neutron.Sys EndToEndExample AppExample Session Trace ConfirmedExample Frame Proto
open ReturnsExample (hear_does write_does arrives)

set_option maxRecDepth 20000

/-- The engine passes on the message; `consume` gets it and gives it to the plugin. -/
abbrev takes : List App.Act := .world (.sys (.engIn b0)) :: ((Consumer.go 0 5).map fun x => .world (.app x))
/-- The plugin calls `ack`. -/
abbrev acks : List App.Act := .start (.call 0 (Session.ack theId)) :: asks 1 0
/-- The call of `ack` returns, so does the plugin, and `consume` waits again. -/
abbrev rests : List App.Act := gets 1 ++ [.run 1] ++ ([Consumer.Act.offer 0 (.ok ())] ++ Consumer.go 0 3).map fun x => .world (.app x)

def d1 : App.State UInt8 := AppExample.after (App.init wcfg) part1
def d2 : App.State UInt8 := wrote d1 (bytes connectV)
def d3 : App.State UInt8 := heard d2 connectedC
def d4 : App.State UInt8 := AppExample.after d3 part2
def d5 : App.State UInt8 := wrote d4 (bytes (out lookupA))
def d6 : App.State UInt8 := heard d5 (found 1)
def d7 : App.State UInt8 := AppExample.after d6 part3
def d8 : App.State UInt8 := wrote d7 (bytes (out subscribeA))
def d9 : App.State UInt8 := heard d8 (successC 1)
def d10 : App.State UInt8 := AppExample.after d9 part7
def d11 : App.State UInt8 := wrote d10 (bytes (out flowA))
def d12 : App.State UInt8 := AppExample.after d11 ReceiveAllExample.waits
def d13 : App.State UInt8 := heard d12 m1
def d14 : App.State UInt8 := AppExample.after d13 takes
def d15 : App.State UInt8 := AppExample.after d14 acks
def d16 : App.State UInt8 := wrote d15 (bytes (out ackOut))
def d17 : App.State UInt8 := heard d16 (ackC 0 2)
def d18 : App.State UInt8 := AppExample.after d17 rests

theorem k1 : App.exec wcfg (App.init wcfg) part1 = some d1 := rfl
theorem k2 : App.exec wcfg d1 write = some d2 :=
  write_exec (c := ⟨connectOut, some 0, some (0, ⟨.connect ⟨none, none, none⟩, some 0⟩)⟩) (q := []) rfl trivial (by decide +kernel) rfl rfl rfl
theorem k3 : App.exec wcfg d2 (AppExample.hear connectedC) = some d3 := hear_exec frame_connected (by decide) rfl rfl false rfl rfl rfl
theorem k4 : App.exec wcfg d3 part2 = some d4 := rfl
theorem k5 : App.exec wcfg d4 write = some d5 :=
  write_exec (c := ⟨lookupA, none, some (0, ⟨lookupA, some 1⟩)⟩) (v := out lookupA) rfl trivial (by decide +kernel) rfl rfl rfl
theorem k6 : App.exec wcfg d5 (AppExample.hear (found 1)) = some d6 :=
  hear_exec (frame_found 1 (by decide) (by decide +kernel)) (by decide) rfl rfl true rfl rfl rfl
theorem k7 : App.exec wcfg d6 part3 = some d7 := rfl
theorem k8 : App.exec wcfg d7 write = some d8 :=
  write_exec (c := ⟨subscribeA, none, some (0, ⟨subscribeA, some 2⟩)⟩) (v := out subscribeA) rfl trivial (by decide +kernel) rfl rfl rfl
theorem k9 : App.exec wcfg d8 (AppExample.hear (successC 1)) = some d9 := hear_exec frame_success (by decide) rfl rfl true rfl rfl rfl
theorem k10 : App.exec wcfg d9 part7 = some d10 := rfl
theorem k11 : App.exec wcfg d10 write = some d11 :=
  write_exec (c := ⟨flowA, none, some (0, ⟨flowA, none⟩)⟩) (v := out flowA) rfl trivial (by decide +kernel) rfl rfl rfl
theorem k12 : App.exec wcfg d11 ReceiveAllExample.waits = some d12 := rfl
theorem k13 : App.exec wcfg d12 (AppExample.hear m1) = some d13 := hear_exec frame1 (by decide) rfl rfl true rfl rfl rfl
theorem k14 : App.exec wcfg d13 takes = some d14 := rfl
theorem k15 : App.exec wcfg d14 acks = some d15 := rfl
theorem k16 : App.exec wcfg d15 write = some d16 :=
  write_exec (c := ⟨ackOut, none, some (0, ⟨ackOut, some 3⟩)⟩) (v := out ackOut) rfl ack_valid (by decide +kernel) rfl rfl rfl
theorem k17 : App.exec wcfg d16 (AppExample.hear (ackC 0 2)) = some d17 := hear_exec frame_ack (by decide) rfl rfl true rfl rfl rfl
theorem k18 : App.exec wcfg d17 rests = some d18 := rfl

abbrev all : List App.Act := part1 ++ (write ++ (AppExample.hear connectedC ++ (part2 ++ (write ++ (AppExample.hear (found 1) ++ (part3 ++ (write ++
  (AppExample.hear (successC 1) ++ (part7 ++ (write ++ (ReceiveAllExample.waits ++ (AppExample.hear m1 ++ (takes ++ (acks ++ (write ++ (AppExample.hear (ackC 0 2) ++
  rests))))))))))))))))

theorem y2 : App.exec wcfg (App.init wcfg) (all.take 10) = some d2 := exec_trans k1 k2
theorem y3 : App.exec wcfg (App.init wcfg) (all.take 12) = some d3 := exec_trans y2 k3
theorem y4 : App.exec wcfg (App.init wcfg) (all.take 17) = some d4 := exec_trans y3 k4
theorem y5 : App.exec wcfg (App.init wcfg) (all.take 18) = some d5 := exec_trans y4 k5
theorem y6 : App.exec wcfg (App.init wcfg) (all.take 20) = some d6 := exec_trans y5 k6
theorem y7 : App.exec wcfg (App.init wcfg) (all.take 25) = some d7 := exec_trans y6 k7
theorem y8 : App.exec wcfg (App.init wcfg) (all.take 26) = some d8 := exec_trans y7 k8
theorem y9 : App.exec wcfg (App.init wcfg) (all.take 28) = some d9 := exec_trans y8 k9
theorem y10 : App.exec wcfg (App.init wcfg) (all.take 34) = some d10 := exec_trans y9 k10
theorem y11 : App.exec wcfg (App.init wcfg) (all.take 35) = some d11 := exec_trans y10 k11
theorem y12 : App.exec wcfg (App.init wcfg) (all.take 38) = some d12 := exec_trans y11 k12
theorem y13 : App.exec wcfg (App.init wcfg) (all.take 40) = some d13 := exec_trans y12 k13
theorem y14 : App.exec wcfg (App.init wcfg) (all.take 46) = some d14 := exec_trans y13 k14
theorem y15 : App.exec wcfg (App.init wcfg) (all.take 50) = some d15 := exec_trans y14 k15
theorem y16 : App.exec wcfg (App.init wcfg) (all.take 51) = some d16 := exec_trans y15 k16
theorem y17 : App.exec wcfg (App.init wcfg) (all.take 53) = some d17 := exec_trans y16 k17
theorem y18 : App.exec wcfg (App.init wcfg) (all.take 60) = some d18 := exec_trans y17 k18

theorem all_exec : App.exec wcfg (App.init wcfg) all = some d18 := y18
theorem all_length : all.length = 60 := rfl

theorem at_rest : Settled.AtRest d18 := ⟨rfl, rfl⟩

theorem all_writes : all.map ReturnsExample.isWrite = (List.range 60).map (fun n => decide (n = 9 ∨ n = 17 ∨ n = 25 ∨ n = 34 ∨ n = 50)) := rfl

theorem wrote_out : ([d1, d2, d4, d5, d7, d8, d10, d11, d15, d16].map fun a => (a.world.sys.conns b0).written.map (·.out)) =
    [[], [connectOut], [connectOut], [connectOut, lookupA], [connectOut, lookupA], [connectOut, lookupA, subscribeA],
      [connectOut, lookupA, subscribeA], [connectOut, lookupA, subscribeA, flowA], [connectOut, lookupA, subscribeA, flowA],
      [connectOut, lookupA, subscribeA, flowA, ackOut]] := rfl

theorem written9 : Settled.Written all 9 := by
  have hd := hear_does (a := d2) frame_connected (by decide) false rfl rfl
  exact ⟨part1, all.drop 10, d1, d2, connectOut, rfl, rfl, k1, k2,
    write_does (c := ⟨connectOut, some 0, some (0, ⟨.connect ⟨none, none, none⟩, some 0⟩)⟩) (q := []) rfl trivial (by decide +kernel) rfl, rfl,
    .inr ⟨part1 ++ write ++ arrives connectedC, all.drop 12, _, connectedC, _, rfl, by decide, exec_trans y2 hd.1, hd.2, rfl, trivial⟩⟩

theorem written17 : Settled.Written all 17 := by
  have hd := hear_does (a := d5) (frame_found 1 (by decide) (by decide +kernel)) (by decide) true rfl rfl
  exact ⟨all.take 17, all.drop 18, d4, d5, lookupA, rfl, rfl, y4, k5,
    write_does (c := ⟨lookupA, none, some (0, ⟨lookupA, some 1⟩)⟩) (q := []) rfl trivial (by decide +kernel) rfl, rfl,
    .inr ⟨all.take 18 ++ arrives (found 1), all.drop 20, _, found 1, _, rfl, by decide, exec_trans y5 hd.1, hd.2, rfl, trivial⟩⟩

theorem written25 : Settled.Written all 25 := by
  have hd := hear_does (a := d8) frame_success (by decide) true rfl rfl
  exact ⟨all.take 25, all.drop 26, d7, d8, subscribeA, rfl, rfl, y7, k8,
    write_does (c := ⟨subscribeA, none, some (0, ⟨subscribeA, some 2⟩)⟩) (q := []) rfl trivial (by decide +kernel) rfl, rfl,
    .inr ⟨all.take 26 ++ arrives (successC 1), all.drop 28, _, successC 1, _, rfl, by decide, exec_trans y8 hd.1, hd.2, rfl, trivial⟩⟩

theorem written34 : Settled.Written all 34 :=
  ⟨all.take 34, all.drop 35, d10, d11, flowA, rfl, rfl, y10, k11,
    write_does (c := ⟨flowA, none, some (0, ⟨flowA, none⟩)⟩) (q := []) rfl trivial (by decide +kernel) rfl, rfl, .inl fun x hx => by cases x <;> exact hx⟩

theorem written50 : Settled.Written all 50 := by
  have hd := hear_does (a := d16) frame_ack (by decide) true rfl rfl
  exact ⟨all.take 50, all.drop 51, d15, d16, ackOut, rfl, rfl, y15, k16,
    write_does (c := ⟨ackOut, none, some (0, ⟨ackOut, some 3⟩)⟩) (q := []) rfl ack_valid (by decide +kernel) rfl, rfl,
    .inr ⟨all.take 51 ++ arrives (ackC 0 2), all.drop 53, _, ackC 0 2, _, rfl, by decide, exec_trans y16 hd.1, hd.2, rfl, trivial⟩⟩

theorem written_all (n : Nat) (h : (all[n]?.map ReturnsExample.isWrite).getD false = true) : Settled.Written all n := by
  have hn : n < 60 := by
    rcases Nat.lt_or_ge n 60 with hn | hn
    · exact hn
    · rw [List.getElem?_eq_none (by rw [all_length]; exact hn)] at h
      cases h
  rw [← List.getElem?_map, all_writes] at h
  simp only [List.getElem?_map, List.getElem?_range hn, Option.map_some, Option.getD_some, decide_eq_true_eq] at h
  rcases h with rfl | rfl | rfl | rfl | rfl
  · exact written9
  · exact written17
  · exact written25
  · exact written34
  · exact written50

/-! What can be seen at each time. -/

/-- What `f` sees before each of these actions. -/
def looks {β : Type} (f : App.State UInt8 → β) (a : App.State UInt8) : List App.Act → List β
  | [] => []
  | [_] => [f a]
  | x :: y :: xs => f a :: match App.step wcfg a x with
    | some a' => looks f a' (y :: xs)
    | none => []

theorem look_at {β : Type} {f : App.State UInt8 → β} {v : β} : ∀ (seg : List App.Act) {a t : App.State UInt8} {k : Nat}, looks f a seg = List.replicate seg.length v →
    k < seg.length → App.exec wcfg a (seg.take k) = some t → f t = v := by
  intro seg
  induction seg with
  | nil => intro a t k _ hk; cases hk
  | cons x xs ih =>
    intro a t k hl hk he
    have h0 : f a = v := by
      cases xs with
      | nil => simpa [looks] using hl
      | cons y ys => simp only [looks, List.length_cons, List.replicate_succ, List.cons.injEq] at hl; exact hl.1
    cases k with
    | zero => cases he; exact h0
    | succ k =>
      cases xs with
      | nil => simp at hk
      | cons y ys =>
        simp only [List.take_succ_cons, App.exec] at he
        simp only [looks] at hl
        cases hs : App.step wcfg a x with
        | none => rw [hs] at he; cases he
        | some a' =>
          rw [hs] at he hl
          dsimp only at he hl
          refine ih (k := k) ?_ (by simpa using hk) he
          simp only [List.length_cons, List.replicate_succ, List.cons.injEq] at hl
          simp only [List.length_cons, List.replicate_succ]
          exact hl.2

/-- The message the first receiving call is giving to a plugin, and which; and whether the consumer is on its connection with one call. -/
def sees (a : App.State UInt8) : Option (Consumer.Received UInt8 × Nat) × Bool :=
  (match a.world.app.tasks[0]? with
    | some t => match t.stage with
      | .offering y p => some (y, p)
      | _ => none
    | none => none, ReceiveAllExample.fine a)

/-- The first receiving call is not inside the plugin. -/
def nothing (a : App.State UInt8) : Bool := match (sees a).1 with
  | some (_, 0) => false
  | _ => true

theorem from_to {β : Type} {f : App.State UInt8 → β} {v : β} {σ : Nat → App.State UInt8} (hσ : ∀ n, n ≤ all.length → App.exec wcfg (App.init wcfg) (all.take n) = some (σ n))
    {k l n : Nat} {a : App.State UInt8} (he : App.exec wcfg (App.init wcfg) (all.take k) = some a) (hlen : ((all.drop k).take l).length = l)
    (hl : looks f a ((all.drop k).take l) = List.replicate l v) (h1 : k ≤ n) (h2 : n < k + l) : f (σ n) = v := by
  have hk : k + l ≤ all.length := by
    rw [List.length_take, List.length_drop] at hlen
    omega
  obtain ⟨j, rfl⟩ : ∃ j, n = k + j := ⟨n - k, by omega⟩
  have hs := hσ (k + j) (by omega)
  rw [show all.take (k + j) = all.take k ++ ((all.drop k).take l).take j by
    rw [List.take_take, Nat.min_eq_left (by omega), List.take_add], AppExample.exec_append, he, Option.bind_some] at hs
  exact look_at _ (by rw [hlen]; exact hl) (by rw [hlen]; omega) hs

def theMessage : Consumer.Received UInt8 := ⟨104, theId⟩

theorem l1 : looks nothing (App.init wcfg) ((all.drop 0).take 10) = List.replicate 10 true := rfl
theorem l2 : looks nothing d2 ((all.drop 10).take 2) = List.replicate 2 true := rfl
theorem l3 : looks nothing d3 ((all.drop 12).take 6) = List.replicate 6 true := rfl
theorem l5 : looks nothing d5 ((all.drop 18).take 2) = List.replicate 2 true := rfl
theorem l6 : looks nothing d6 ((all.drop 20).take 6) = List.replicate 6 true := rfl
theorem l8 : looks nothing d8 ((all.drop 26).take 2) = List.replicate 2 true := rfl
theorem l9 : looks nothing d9 ((all.drop 28).take 7) = List.replicate 7 true := rfl
theorem l11 : looks nothing d11 ((all.drop 35).take 1) = List.replicate 1 true := rfl
theorem spawned : App.exec wcfg d11 (ReceiveAllExample.waits.take 1) = some (AppExample.after d11 (ReceiveAllExample.waits.take 1)) := rfl
theorem y36 : App.exec wcfg (App.init wcfg) (all.take 36) = some (AppExample.after d11 (ReceiveAllExample.waits.take 1)) := exec_trans y11 spawned
theorem l12 : looks sees (AppExample.after d11 (ReceiveAllExample.waits.take 1)) ((all.drop 36).take 4) = List.replicate 4 (none, true) := rfl
theorem l13 : looks sees d13 ((all.drop 40).take 6) = List.replicate 6 (none, true) := rfl
theorem l14 : looks sees d14 ((all.drop 46).take 5) = List.replicate 5 (some (theMessage, 0), true) := rfl
theorem l16 : looks sees d16 ((all.drop 51).take 2) = List.replicate 2 (some (theMessage, 0), true) := rfl
theorem l17 : looks sees d17 ((all.drop 53).take 4) = List.replicate 4 (some (theMessage, 0), true) := rfl
/-- The plugin returns. -/
def d18' : App.State UInt8 := AppExample.after d17 (rests.take 4)
theorem returned : App.exec wcfg d17 (rests.take 4) = some d18' := rfl
theorem y57 : App.exec wcfg (App.init wcfg) (all.take 57) = some d18' := exec_trans y17 returned
theorem l18 : looks (fun a => (sees a).2) d18' ((all.drop 57).take 3) = List.replicate 3 true := rfl
theorem l18' : looks nothing d18' ((all.drop 57).take 3) = List.replicate 3 true := rfl
theorem l19 : (nothing d18, (sees d18).2) = (true, true) := rfl

theorem nothing_of {a : App.State UInt8} {v : Bool} (h : sees a = (none, v)) : nothing a = true := by
  unfold nothing; rw [h]

theorem outside {σ : Nat → App.State UInt8} {acts : Nat → App.Act} (h : Settled.Settles all d18 σ acts) {n : Nat} (hn : n < 46 ∨ 56 < n) :
    nothing (σ n) = true := by
  have hσ := h.early
  rcases Nat.lt_or_ge n 60 with h60 | h60
  · rcases Nat.lt_or_ge n 10 with c | c
    · exact from_to hσ (k := 0) (l := 10) rfl rfl l1 (by omega) (by omega)
    rcases Nat.lt_or_ge n 12 with c | c
    · exact from_to hσ (k := 10) (l := 2) y2 rfl l2 (by omega) (by omega)
    rcases Nat.lt_or_ge n 18 with c | c
    · exact from_to hσ (k := 12) (l := 6) y3 rfl l3 (by omega) (by omega)
    rcases Nat.lt_or_ge n 20 with c | c
    · exact from_to hσ (k := 18) (l := 2) y5 rfl l5 (by omega) (by omega)
    rcases Nat.lt_or_ge n 26 with c | c
    · exact from_to hσ (k := 20) (l := 6) y6 rfl l6 (by omega) (by omega)
    rcases Nat.lt_or_ge n 28 with c | c
    · exact from_to hσ (k := 26) (l := 2) y8 rfl l8 (by omega) (by omega)
    rcases Nat.lt_or_ge n 35 with c | c
    · exact from_to hσ (k := 28) (l := 7) y9 rfl l9 (by omega) (by omega)
    rcases Nat.lt_or_ge n 36 with c | c
    · exact from_to hσ (k := 35) (l := 1) y11 rfl l11 (by omega) (by omega)
    rcases Nat.lt_or_ge n 40 with c | c
    · exact nothing_of (from_to hσ (k := 36) (l := 4) y36 rfl l12 (by omega) (by omega))
    rcases Nat.lt_or_ge n 46 with c | c
    · exact nothing_of (from_to hσ (k := 40) (l := 6) y13 rfl l13 (by omega) (by omega))
    · exact from_to hσ (k := 57) (l := 3) y57 rfl l18' (by omega) (by omega)
  · have := (Prod.mk.inj l19).1
    unfold nothing sees at this ⊢
    rw [(h.late n (by rw [all_length]; exact h60)).2.2]
    exact this

theorem inside {σ : Nat → App.State UInt8} {acts : Nat → App.Act} (h : Settled.Settles all d18 σ acts) {n : Nat} (h1 : 46 ≤ n) (h2 : n ≤ 56) :
    sees (σ n) = (some (theMessage, 0), true) := by
  have hσ := h.early
  rcases Nat.lt_or_ge n 51 with c | c
  · exact from_to hσ (k := 46) (l := 5) y14 rfl l14 (by omega) (by omega)
  rcases Nat.lt_or_ge n 53 with c | c
  · exact from_to hσ (k := 51) (l := 2) y16 rfl l16 (by omega) (by omega)
  · exact from_to hσ (k := 53) (l := 4) y17 rfl l17 (by omega) (by omega)

theorem is_fine {σ : Nat → App.State UInt8} {acts : Nat → App.Act} (h : Settled.Settles all d18 σ acts) {n : Nat} (hn : 36 ≤ n) :
    ReceiveAllExample.fine (σ n) = true := by
  have hσ := h.early
  have of : ∀ {v}, sees (σ n) = (v, true) → ReceiveAllExample.fine (σ n) = true := fun h => (Prod.mk.inj h).2
  rcases Nat.lt_or_ge n 40 with c | c
  · exact of (from_to hσ (k := 36) (l := 4) y36 rfl l12 (by omega) (by omega))
  rcases Nat.lt_or_ge n 46 with c | c
  · exact of (from_to hσ (k := 40) (l := 6) y13 rfl l13 (by omega) (by omega))
  rcases Nat.lt_or_ge n 57 with c | c
  · exact of (inside h (by omega) (by omega))
  rcases Nat.lt_or_ge n 60 with c | c
  · exact from_to hσ (k := 57) (l := 3) y57 rfl l18 (by omega) (by omega)
  · have := (Prod.mk.inj l19).2
    unfold sees at this
    dsimp only at this
    unfold ReceiveAllExample.fine att at this ⊢
    rw [(h.late n (by rw [all_length]; exact c)).2.2, (h.late n (by rw [all_length]; exact c)).1]
    exact this

theorem end_jobs : d18.world.app.tasks.map (·.job) = [.consume] := rfl
theorem alive_end : d18.world.app.alive 0 := ⟨_, rfl, by intro h; cases h⟩
theorem no_runs (i : Nat) : Consumer.step wcfg.app d18.world.app (.run i) = none := by
  cases i with
  | zero => rfl
  | succ i => rfl
theorem end_processed : (d18.world.sys.conns b0).processed.map (·.out) = [connectOut, lookupA, subscribeA, flowA, ackOut] := rfl
theorem end_addrs : d18.world.sys.addrs = [b0] := rfl

def isOffer : App.Act → Bool
  | .world (.app (.offer _ _)) => true
  | _ => false

theorem only_offer : all.map isOffer = (List.range 60).map (fun n => decide (n = 56)) := rfl
theorem the_offer : all[56]? = some (.world (.app (.offer 0 (.ok ())))) := rfl
theorem the_ack : all[46]? = some (.start (.call 0 (Session.ack theId))) := rfl
theorem jobs14 : d14.jobs.length = 1 := rfl
theorem ended56 : App.exec wcfg d17 (rests.take 3) = some (AppExample.after d17 (rests.take 3)) := rfl
theorem y56 : App.exec wcfg (App.init wcfg) (all.take 56) = some (AppExample.after d17 (rests.take 3)) := exec_trans y17 ended56
theorem ended : (AppExample.after d17 (rests.take 3)).jobs[1]?.map (·.ended) = some (some (.ok ())) := rfl
theorem underway13 : received d13.world.sys wcfg.me ++ underway d13.world.sys wcfg.me b0 = [ReceiveAllExample.x1] := rfl
theorem yields1 : Consumer.yields wcfg.app.decode ReceiveAllExample.x1 = [.ok theMessage] := rfl

theorem end_fits {σ : Nat → App.State UInt8} {acts : Nat → App.Act} (h : Settled.Settles all d18 σ acts) (n : Nat) : World.Fits (σ n).world := by
  have hF := app_forever h.forever
  have hlate : sysOf σ (n + 60) = d18.world.sys := (h.late (n + 60) (by rw [all_length]; omega)).1
  have hr : Reachable wcfg.sys d18.world.sys := by rw [← hlate]; exact forever_reachable hF _
  intro b c hc
  obtain ⟨⟨d, hd, _⟩, _⟩ := path_writes (forever_reachable hF n) (continues_to hF (by omega : n ≤ n + 60)) b (works_slice (h.part.works b) _ _)
  have hc : c ∈ (d18.world.sys.conns b).processed := by
    rw [← hlate, hd]
    exact List.mem_append_left _ hc
  by_cases hb : b ∈ d18.world.sys.addrs
  · rw [end_addrs] at hb
    have hb : b = b0 := by simpa using hb
    subst hb
    have := List.mem_map_of_mem (f := (·.out)) hc
    rw [end_processed] at this
    simp only [List.mem_cons, List.not_mem_nil, or_false] at this
    rcases this with h | h | h | h | h <;> rw [h] <;> first | exact ⟨trivial, by decide +kernel⟩ | exact ⟨ack_valid, by decide +kernel⟩
  · rw [(Sys.conn hr).unused b hb] at hc
    cases hc

theorem one_call {σ : Nat → App.State UInt8} {acts : Nat → App.Act} (h : Settled.Settles all d18 σ acts) (n : Nat) :
    (σ n).world.app.tasks.map (·.job) <+: [.consume] := by
  have hcf := consumer_forever h.forever (never_stopped h.forever h.part.loops)
  have := jobs_grow (past := []) (acts := onConsumer σ acts) (show n ≤ n + 60 by omega)
  rw [← Consumer.task_jobs (hcf.run n), ← Consumer.task_jobs (hcf.run (n + 60))] at this
  rw [(h.late (n + 60) (by rw [all_length]; omega)).2.2, end_jobs] at this
  exact this

/-- When the plugin is called, by which call and with which message. -/
theorem in_plugin {σ : Nat → App.State UInt8} {acts : Nat → App.Act} (h : Settled.Settles all d18 σ acts) {n i : Nat} {y : Consumer.Received UInt8} :
    InPlugin (σ n) i 0 y ↔ 46 ≤ n ∧ n ≤ 56 ∧ i = 0 ∧ y = theMessage := by
  constructor
  · rintro ⟨t, ht, hst⟩
    have hi0 : i = 0 := by
      obtain ⟨rest, hr⟩ := one_call h n
      have h1 := (List.getElem?_eq_some_iff.mp ht).1
      have h2 := congrArg List.length hr
      simp only [List.length_append, List.length_map, List.length_cons, List.length_nil] at h2
      omega
    subst hi0
    by_cases hn : n < 46 ∨ 56 < n
    · have := outside h hn
      unfold nothing sees at this
      rw [ht] at this
      simp [hst] at this
    · have := inside h (show 46 ≤ n by omega) (show n ≤ 56 by omega)
      unfold sees at this
      rw [ht] at this
      simp only [hst, Prod.mk.injEq, Option.some.injEq, and_true] at this
      exact ⟨by omega, by omega, rfl, this.1⟩
  · rintro ⟨h1, h2, rfl, rfl⟩
    have := inside h h1 h2
    unfold sees at this
    simp only [Prod.mk.injEq] at this
    have := this.1
    split at this
    · rename_i t ht
      split at this
      · rename_i y p hst
        cases this
        exact ⟨t, ht, hst⟩
      · cases this
    · cases this

theorem ack_of {σ : Nat → App.State UInt8} {acts : Nat → App.Act} (h : Settled.Settles all d18 σ acts) :
    AckOf wcfg σ acts 0 0 theMessage 1 56 := by
  refine ⟨46, by omega, ?_, ?_, fun m h1 h2 => (in_plugin h).mpr ⟨h1, h2, rfl, rfl⟩⟩
  · rw [h.actions, the_ack]; rfl
  · have := h.early 46 (by decide)
    rw [← Option.some.inj (y14.symm.trans this)]
    exact jobs14

theorem auto_acks {σ : Nat → App.State UInt8} {acts : Nat → App.Act} (h : Settled.Settles all d18 σ acts) : AutoAcks wcfg σ acts 0 := by
  have hoffer : acts 56 = .world (.app (.offer 0 (.ok ()))) := by rw [h.actions, the_offer]; rfl
  refine ⟨fun n i y hin => ?_, fun n i y k ha => .inr ⟨fun m he => ?_, h.fair k⟩, fun n i y k ha _ => ?_, fun n i y r hin ha => ?_⟩
  · obtain ⟨h1, h2, rfl, rfl⟩ := (in_plugin h).mp hin
    exact .inr ⟨1, 56, h2, ack_of h⟩
  · rw [h.actions] at he
    cases hx : all[m]? with
    | none => rw [hx] at he; cases he
    | some y =>
      rw [hx] at he
      simp only [Option.getD_some] at he
      subst he
      have hm : ReturnsExample.isDrop (.drop k) ∈ all.map ReturnsExample.isDrop := List.mem_map_of_mem (List.mem_of_getElem? hx)
      rw [show all.map ReturnsExample.isDrop = List.replicate 60 false from rfl] at hm
      cases List.eq_of_mem_replicate hm
  · obtain ⟨n', h1, _, _, h2⟩ := ha
    obtain ⟨_, h3, rfl, rfl⟩ := (in_plugin h).mp (h2 n h1 (Nat.le_refl n))
    exact .inr ⟨56, _, h3, hoffer⟩
  · obtain ⟨h1, h2, rfl, rfl⟩ := (in_plugin h).mp hin
    have hn : n = 56 := by
      rw [h.actions] at ha
      have hg : (all.map isOffer)[n]? = some true := by
        rw [List.getElem?_map]
        cases hx : all[n]? with
        | none => rw [hx] at ha; cases ha
        | some y => rw [hx] at ha; simp only [Option.getD_some] at ha; subst ha; rfl
      rw [only_offer, List.getElem?_map, List.getElem?_range (by omega)] at hg
      simpa using hg
    subst hn
    rw [hoffer] at ha
    cases ha
    have hs := h.early 56 (by decide)
    obtain ⟨j, hj, he⟩ := Option.map_eq_some_iff.mp ended
    exact ⟨1, j, ack_of h, by rw [← Option.some.inj (y56.symm.trans hs)]; exact hj, he⟩

def subscribeM : Msg := mkMsg .commandSubscribe [(1, vStr "t"), (2, vStr "s"), (3, [.int SubType.shared.number]), (4, vU64 0), (5, vU64 1)]

theorem subscribes : IsSubscribe (out subscribeA) 0 := by
  have h : ∃ sub, getMsg .baseCommand (baseCommand 4 4 subscribeM) 4 = some sub ∧ getU64 .commandSubscribe sub 4 = 0 := by
    refine ⟨subscribeM, ?_, u64_of rfl rfl⟩
    unfold getMsg baseCommand
    rw [getF_mk _ _ _ rfl]
    rfl
  exact ⟨commandType_base .., h⟩

theorem fair_calls {σ : Nat → App.State UInt8} {acts : Nat → App.Act} (h : Settled.Settles all d18 σ acts) : ∀ i, FairToReceiver wcfg σ acts i := by
  have hlate : ∀ n, 60 ≤ n → (σ n).world.app = d18.world.app := fun n hn => (h.late n (by rw [all_length]; exact hn)).2.2
  intro i hag
  obtain ⟨m, hm, a, hs⟩ := hag 60
  exfalso
  obtain ⟨_, hw, _⟩ := step_some hs
  simp only [App.induced, worldSteps] at hw
  cases hws : World.step wcfg (σ m).world (.app (.run i)) with
  | none => rw [hws] at hw; cases hw
  | some w' =>
    simp only [World.step] at hws
    rw [hlate m hm] at hws
    rw [no_runs i] at hws
    simp at hws

theorem attached_on {σ : Nat → App.State UInt8} {acts : Nat → App.Act} (h : Settled.Settles all d18 σ acts) :
    ∀ m, 36 ≤ m → Attached wcfg.me b0 (sysOf σ m) := by
  intro m hm
  have := is_fine h hm
  unfold ReceiveAllExample.fine at this
  simp only [Bool.and_eq_true, decide_eq_true_eq] at this
  exact att_iff this.1

theorem alive_on {σ : Nat → App.State UInt8} {acts : Nat → App.Act} (h : Settled.Settles all d18 σ acts) :
    ∀ m, 36 ≤ m → (σ m).world.app.alive 0 := by
  have hlate : ∀ n, 60 ≤ n → (σ n).world.app = d18.world.app := fun n hn => (h.late n (by rw [all_length]; exact hn)).2.2
  have hcf := consumer_forever h.forever (never_stopped h.forever h.part.loops)
  intro m hm
  refine alive_back hcf (show m ≤ m + 60 by omega) ?_ ?_
  · have := is_fine h hm
    unfold ReceiveAllExample.fine at this
    simp only [Bool.and_eq_true, decide_eq_true_eq] at this
    show 0 < (σ m).world.app.tasks.length
    omega
  · show (σ (m + 60)).world.app.alive 0
    rw [hlate _ (by omega)]
    exact alive_end

theorem offers_on {σ : Nat → App.State UInt8} {acts : Nat → App.Act} (h : Settled.Settles all d18 σ acts) : ∀ n, App.Offers (σ n) := by
  intro n j hj i p hm
  obtain ⟨k, hk, hkj⟩ := List.getElem_of_mem hj
  obtain ⟨j', hj', hm'⟩ := made_to h.forever (show n ≤ n + 60 by omega) (List.getElem?_eq_some_iff.mpr ⟨hk, hkj⟩)
  rw [(h.late (n + 60) (by rw [all_length]; omega)).2.1] at hj'
  have hmade : j'.made = .call i p := hm'.trans hm
  have : Start.call i p ∈ d18.jobs.map (·.made) := by rw [← hmade]; exact List.mem_map_of_mem (List.mem_of_getElem? hj')
  rw [show d18.jobs.map (·.made) = [.consumer builder, .call 0 (Session.ack theId)] from rfl] at this
  simp only [List.mem_cons, List.not_mem_nil, or_false] at this
  rcases this with h | h
  · cases h
  · cases h; exact .ack _

/-- The hypotheses of `C147_comes_back`, `C147_plugins`, `C147_accepted`, `C147_reaches`, `C147_acknowledged` and `C147_there` are met, and so are their conclusions:
a consumer with one plugin, which acknowledges what it is given; the bytes of a message arrive. -/
example : ∃ (σ : Nat → App.State UInt8) (acts : Nat → App.Act), App.Forever wcfg σ acts ∧
    DoTheirPart wcfg.sys (sysOf σ) (roundsOf wcfg σ acts) ∧ (∀ n, (sysOf σ n).nClients ≤ 2 ^ 64) ∧ (∀ n, World.Fits (σ n).world) ∧
    Served wcfg σ acts wcfg.me ∧ wcfg.app.plugins = 1 ∧ AutoAcks wcfg σ acts 0 ∧ (∀ i, FairToReceiver wcfg σ acts i) ∧
    (∀ n, (σ n).world.app.tasks.map (·.job) <+: [.consume]) ∧ (∀ m, 36 ≤ m → Attached wcfg.me b0 (sysOf σ m)) ∧
    (∀ m, 36 ≤ m → (σ m).world.app.alive 0) ∧ ReceiveAllExample.x1 ∈ received (sysOf σ 40) wcfg.me ++ underway (sysOf σ 40) wcfg.me b0 ∧
    .ok theMessage ∈ Consumer.yields wcfg.app.decode ReceiveAllExample.x1 ∧ ComesBack σ acts 0 ∧ Acknowledged wcfg σ acts 0 0 theMessage ∧
    Reaches σ (fun v => IsAck v (UInt64.ofNat wcfg.me) theId) ∧ (∀ n, App.Offers (σ n)) ∧
    ∃ n s, Received ((σ n).world.tx b0).sent s ∧ IsSubscribe s (UInt64.ofNat wcfg.me) := by
  obtain ⟨σ, acts, h⟩ := Settled.settles all_exec at_rest written_all
  have hfair := fair_calls h
  have hat := attached_on h
  have hal := alive_on h
  have h40 : sysOf σ 40 = d13.world.sys := by
    have := h.early 40 (by decide)
    unfold sysOf
    rw [← Option.some.inj (y13.symm.trans this)]
  have hx : ReceiveAllExample.x1 ∈ received (sysOf σ 40) wcfg.me ++ underway (sysOf σ 40) wcfg.me b0 := by
    rw [h40, underway13]; exact List.mem_singleton.mpr rfl
  have hy : .ok theMessage ∈ Consumer.yields wcfg.app.decode ReceiveAllExample.x1 := by rw [yields1]; exact List.mem_singleton.mpr rfl
  have hfit := end_fits h
  have hack := C147_acknowledged h.forever h.part h.clients hfit (h.served wcfg.me) (show 0 < wcfg.app.plugins by decide) (auto_acks h)
    (fun p' hp' hne => by exact absurd (show p' < 1 from hp') (by omega)) hfair (one_call h) hat hal (show 36 ≤ 40 by omega) hx hy
  refine ⟨σ, acts, h.forever, h.part, h.clients, hfit, h.served _, rfl, auto_acks h, hfair, one_call h, hat, hal, hx, hy,
    C147_comes_back h.forever h.part h.clients (h.served _) (by decide) (auto_acks h), hack.1, hack.2, ?_, ?_⟩
  · exact offers_on h
  · have h26 : (σ 26).world.tx b0 = d8.world.tx b0 := by
      have := h.early 26 (by decide)
      rw [← Option.some.inj (y8.symm.trans this)]
    refine ⟨26, out subscribeA, ?_, subscribes⟩
    rw [h26]
    refine ⟨[(connectV, bytes connectV), (out lookupA, bytes (out lookupA)), (out subscribeA, bytes (out subscribeA))], ⟨?_, [], ?_⟩, by simp⟩
    · intro f hf
      simp only [List.mem_cons, List.not_mem_nil, or_false] at hf
      rcases hf with rfl | rfl | rfl
      · exact frame_out connectOut rfl trivial (by decide +kernel)
      · exact frame_out lookupA rfl trivial (by decide +kernel)
      · exact frame_out subscribeA rfl trivial (by decide +kernel)
    · simp [Framed.stream, d8, AppExample.wrote, OnTheWireExample.wroteTo]
      rfl

end Neutron.Props.AutoAckExample
