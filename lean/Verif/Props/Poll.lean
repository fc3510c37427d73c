import Verif.Model.Poll
/-! # C109: the poller without epoll -/
namespace Fcgi.Props
open Fcgi.Model

/-- Which descriptors are registered after a history: a set with insertion and removal. -/
def registered : List PollOp → Nat → Prop
  | [], _ => False
  | .add s :: older, x => x = s ∨ registered older x
  | .del s :: older, x => x ≠ s ∧ registered older x

theorem poll_nodup (p : PollSet) (h : p.Nodup) (o : PollOp) : (o.step p).1.Nodup := by
  cases o with
  | add s =>
    simp only [PollOp.step, PollSet.add]
    split
    · exact h
    · rename_i hs
      rw [List.nodup_append]
      refine ⟨h, by simp, ?_⟩
      intro a ha b hb
      simp only [List.mem_singleton] at hb
      subst hb
      exact fun e => hs (e ▸ ha)
  | del s =>
    simp only [PollOp.step, PollSet.del]
    split
    · exact h.sublist List.erase_sublist
    · exact h

theorem poll_step_mem (p : PollSet) (h : p.Nodup) (o : PollOp) (x : Nat) :
    x ∈ (o.step p).1 ↔ match o with | .add s => x = s ∨ x ∈ p | .del s => x ≠ s ∧ x ∈ p := by
  cases o with
  | add s =>
    simp only [PollOp.step, PollSet.add]
    split
    · rename_i hs
      constructor
      · exact .inr
      · rintro (rfl | hx)
        · exact hs
        · exact hx
    · simp only [List.mem_append, List.mem_singleton]
      exact or_comm
  | del s =>
    simp only [PollOp.step, PollSet.del]
    split
    · exact List.Nodup.mem_erase_iff h
    · rename_i hs
      exact ⟨fun hx => ⟨fun e => hs (e ▸ hx), hx⟩, fun hx => hx.2⟩

theorem pollRun_append (l : List PollOp) (o : PollOp) : ∀ p, (pollRun p (l ++ [o])).1 = (o.step (pollRun p l).1).1 ∧
    (pollRun p (l ++ [o])).2 = (pollRun p l).2 ++ [(o.step (pollRun p l).1).2] := by
  induction l with
  | nil => intro p; exact ⟨rfl, rfl⟩
  | cons a l ih => intro p; exact ⟨(ih _).1, congrArg ((a.step p).2 :: ·) (ih _).2⟩

theorem poll_hist (l : List PollOp) : (pollRun [] l.reverse).1.Nodup ∧ ∀ x, x ∈ (pollRun [] l.reverse).1 ↔ registered l x := by
  induction l with
  | nil => exact ⟨List.nodup_nil, by simp [pollRun, registered]⟩
  | cons o l ih =>
    rw [List.reverse_cons, (pollRun_append _ _ _).1]
    refine ⟨poll_nodup _ ih.1 o, ?_⟩
    intro x
    rw [poll_step_mem _ ih.1]
    cases o with
    | add s => simp only [registered, ih.2 x]
    | del s => simp only [registered, ih.2 x]

/-- After any history (latest call first) of add() and del(): a further add() succeeds exactly if the descriptor is not registered, a
further del() exactly if it is; and poll() tells of a registered descriptor exactly what is pending on it, and tells of one whenever
something is pending on some registered descriptor. -/
theorem C109_partial (l : List PollOp) (s : Nat) (k : Pending) :
    (((pollRun [] l.reverse).1.add s).2 = true ↔ ¬ registered l s) ∧
    (((pollRun [] l.reverse).1.del s).2 = true ↔ registered l s) ∧
    (∀ r, (pollRun [] l.reverse).1.poll k = some r → registered l r.1 ∧ r.2 = k r.1 ∧ r.2 ≠ 0) ∧
    ((pollRun [] l.reverse).1.poll k = none ↔ ∀ x, registered l x → k x = 0) := by
  obtain ⟨_, hm⟩ := poll_hist l
  revert hm
  generalize (pollRun [] l.reverse).1 = p
  intro hm
  refine ⟨?_, ?_, ?_, ?_⟩
  · rw [← hm]; unfold PollSet.add; split <;> simp_all
  · rw [← hm]; unfold PollSet.del; split <;> simp_all
  · intro r hr
    unfold PollSet.poll at hr
    rw [Option.map_eq_some_iff] at hr
    obtain ⟨x, hx, rfl⟩ := hr
    refine ⟨(hm x).1 (List.mem_of_find?_eq_some hx), rfl, ?_⟩
    simpa using List.find?_some hx
  · unfold PollSet.poll
    simp only [Option.map_eq_none_iff, List.find?_eq_none, decide_eq_true_eq, Decidable.not_not]
    exact ⟨fun h x hx => h x ((hm x).2 hx), fun h x hx => h x ((hm x).1 hx)⟩

/-- Violated: as long as something is pending on a descriptor, those registered after it are never told of, whatever is pending on them
(and for however long): here `busy` was registered at some time, `s` later, and `ks` is what is pending at each of any number of calls. -/
theorem C109_violated (l : List PollOp) (busy s : Nat) (hb : registered l busy) (hs : ¬ registered l s) (ks : List Pending)
    (hk : ∀ k ∈ ks, k busy ≠ 0) : ∀ k ∈ ks, ∀ e, (pollRun [] (l.reverse ++ [.add s])).1.poll k ≠ some (s, e) := by
  intro k hkm e he
  obtain ⟨_, hm⟩ := poll_hist l
  rw [(pollRun_append _ _ _).1] at he
  revert hm he
  generalize (pollRun [] l.reverse).1 = p
  intro he hm
  have hsp : s ∉ p := fun h => hs ((hm s).1 h)
  have hbp : busy ∈ p := (hm busy).2 hb
  simp only [PollOp.step, PollSet.add, hsp, if_false] at he
  unfold PollSet.poll at he
  rw [Option.map_eq_some_iff] at he
  obtain ⟨x, hx, hxe⟩ := he
  have : x = s := congrArg Prod.fst hxe
  subst this
  rw [List.find?_append] at hx
  cases hf : p.find? (fun s => decide (k s ≠ 0)) with
  | none =>
    rw [List.find?_eq_none] at hf
    exact absurd (hk k hkm) (by simpa using hf busy hbp)
  | some y =>
    rw [hf] at hx
    simp only [Option.some_or, Option.some.injEq] at hx
    subst hx
    exact hsp (List.mem_of_find?_eq_some hf)

/-- Such a history: 3, 4, 5 registered, 3 removed and registered again; 4 is busy. -/
example : registered [.del 3, .add 5, .add 4, .add 3] 4 ∧ ¬ registered [.del 3, .add 5, .add 4, .add 3] 3 ∧
    (pollRun [] [.add 3, .add 4, .add 5, .del 3, .add 3]) = ([4, 5, 3], [true, true, true, true, true]) ∧
    PollSet.poll [4, 5, 3] (fun x => if x = 5 then 0 else 1) = some (4, 1) := by
  refine ⟨by simp [registered], by simp [registered], by decide, by decide⟩

end Fcgi.Props
