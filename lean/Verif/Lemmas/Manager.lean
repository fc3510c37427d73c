import Verif.Model.Manager
import Verif.Spec.ManagerTerms
/-! # Invariants of the manager's threads -/
namespace Fcgi.Model
open Fcgi.Spec
variable {σ : Type}

/-- The request whose `mutex` the thread holds. -/
def HPC.mutexOf : HPC → Option (RequestId × Nat)
  | .enter k r | .look k r | .work k r _ | .kept k r | .stay k r | .over k r | .erase k r => some (k, r)
  | _ => none
def HPC.holdsM : HPC → Option Nat
  | .enter _ r | .look _ r | .work _ r _ | .kept _ r | .stay _ r | .over _ r | .erase _ r => some r
  | _ => none
/-- The request whose queue the thread has seen empty. -/
def HPC.sawEmpty : HPC → Option Nat
  | .kept _ r | .stay _ r | .part _ r => some r
  | _ => none

/-- The requests a call still has to look at. -/
def PPC.todo : PPC → List (RequestId × Nat)
  | .sweep _ l => l
  | _ => []

structure MInv (P : Prog σ) (s : MSt σ) : Prop where
  tl : ∀ t, s.tlock = some t ↔ (s.th t).holdsT = true
  rd : ∀ t, t ∈ s.readers ↔ (s.th t).holdsR = true
  wh : ∀ t, s.writer = some (.handler t) ↔ (s.th t).erasing = true
  wp : ∀ p, s.writer = some (.pusher p) ↔ (s.pu p).holdsW = true
  rw : s.writer = none ∨ s.readers = []
  mu : ∀ r t, (s.objs r).mutex = some t ↔ (s.th t).holdsM = some r
  mt : ∀ t e, (s.th t).mutexOf = some e → e ∈ s.table
  ms : ∀ r t, (s.objs r).msgs = some t ↔ (s.th t).msgsOf = some r
  mq : ∀ t r, (s.th t).sawEmpty = some r → (s.objs r).queue = []
  mx : ∀ t r, (s.th t).msgsOf = some r → r < s.next
  nd : ∀ k r r', (k, r) ∈ s.table → (k, r') ∈ s.table → r = r'
  ni : ∀ k k' r, (k, r) ∈ s.table → (k', r) ∈ s.table → k = k'
  nx : ∀ e ∈ s.table, e.2 < s.next
  al : ∀ r, (s.objs r).alive = true ↔ ∃ k, (k, r) ∈ s.table
  off : ∀ t, P.threads ≤ t → s.th t = .off

theorem mlookup_mem {α β} [DecidableEq α] {l : List (α × β)} {k : α} {v : β} (h : l.lookup k = some v) : (k, v) ∈ l := by
  induction l with
  | nil => simp at h
  | cons e l ih =>
    obtain ⟨a, b⟩ := e
    rw [List.lookup_cons] at h
    by_cases hk : k = a
    · subst hk; simp at h; simp [h]
    · rw [show (k == a) = false by simpa using hk] at h
      simp at h
      exact List.mem_cons_of_mem _ (ih h)

theorem lookup_none {α β} [DecidableEq α] {l : List (α × β)} {k : α} (h : l.lookup k = none) (v : β) : (k, v) ∉ l := by
  intro hm
  rw [List.lookup_eq_none_iff] at h
  have := h _ hm
  simp at this

@[simp] theorem put_same {α} (f : Nat → α) (i : Nat) (v : α) : put f i v i = v := by simp [put]
theorem put_other {α} (f : Nat → α) (i : Nat) (v : α) {j : Nat} (h : j ≠ i) : put f i v j = f j := by simp [put, h]

theorem put_T (f : Nat → HPC) (t x : Nat) (pc : HPC) : (put f t pc x).holdsT = if x = t then pc.holdsT else (f x).holdsT := by
  unfold put; split <;> rfl
theorem put_R (f : Nat → HPC) (t x : Nat) (pc : HPC) : (put f t pc x).holdsR = if x = t then pc.holdsR else (f x).holdsR := by
  unfold put; split <;> rfl
theorem put_E (f : Nat → HPC) (t x : Nat) (pc : HPC) : (put f t pc x).erasing = if x = t then pc.erasing else (f x).erasing := by
  unfold put; split <;> rfl
theorem put_M (f : Nat → HPC) (t x : Nat) (pc : HPC) : (put f t pc x).mutexOf = if x = t then pc.mutexOf else (f x).mutexOf := by
  unfold put; split <;> rfl
theorem put_N (f : Nat → HPC) (t x : Nat) (pc : HPC) : (put f t pc x).holdsM = if x = t then pc.holdsM else (f x).holdsM := by
  unfold put; split <;> rfl
theorem put_Q (f : Nat → HPC) (t x : Nat) (pc : HPC) : (put f t pc x).msgsOf = if x = t then pc.msgsOf else (f x).msgsOf := by
  unfold put; split <;> rfl
theorem put_S (f : Nat → HPC) (t x : Nat) (pc : HPC) : (put f t pc x).sawEmpty = if x = t then pc.sawEmpty else (f x).sawEmpty := by
  unfold put; split <;> rfl
theorem put_W (f : Nat → PPC) (t x : Nat) (pc : PPC) : (put f t pc x).holdsW = if x = t then pc.holdsW else (f x).holdsW := by
  unfold put; split <;> rfl
theorem put_mutex (f : Nat → Obj σ) (r x : Nat) (o : Obj σ) : (put f r o x).mutex = if x = r then o.mutex else (f x).mutex := by
  unfold put; split <;> rfl
theorem put_msgs (f : Nat → Obj σ) (r x : Nat) (o : Obj σ) : (put f r o x).msgs = if x = r then o.msgs else (f x).msgs := by
  unfold put; split <;> rfl
theorem put_queue (f : Nat → Obj σ) (r x : Nat) (o : Obj σ) : (put f r o x).queue = if x = r then o.queue else (f x).queue := by
  unfold put; split <;> rfl
theorem put_alive (f : Nat → Obj σ) (r x : Nat) (o : Obj σ) : (put f r o x).alive = if x = r then o.alive else (f x).alive := by
  unfold put; split <;> rfl

theorem T_all : (HPC.off.holdsT = false) ∧
    (HPC.boot.holdsT = false) ∧
    (HPC.top.holdsT = true) ∧
    (HPC.test.holdsT = true) ∧
    (HPC.drain.holdsT = true) ∧
    (∀ (k : RequestId), (HPC.popped k).holdsT = false) ∧
    (∀ (k : RequestId), (HPC.find k).holdsT = false) ∧
    (∀ (k : RequestId) (r : Nat), (HPC.enter k r).holdsT = false) ∧
    (∀ (k : RequestId) (r : Nat), (HPC.look k r).holdsT = false) ∧
    (∀ (k : RequestId) (r : Nat) (m : Message), (HPC.work k r m).holdsT = false) ∧
    (∀ (k : RequestId) (r : Nat), (HPC.kept k r).holdsT = false) ∧
    (∀ (k : RequestId) (r : Nat), (HPC.stay k r).holdsT = false) ∧
    (∀ (k : RequestId) (r : Nat), (HPC.part k r).holdsT = false) ∧
    (∀ (k : RequestId) (r : Nat), (HPC.over k r).holdsT = false) ∧
    (∀ (k : RequestId) (r : Nat), (HPC.erase k r).holdsT = false) ∧
    (HPC.relock.holdsT = false) ∧
    (HPC.check.holdsT = true) ∧
    (HPC.judge.holdsT = true) ∧
    (HPC.waiting.holdsT = false) ∧
    (HPC.woken.holdsT = false) ∧
    (HPC.finished.holdsT = false) := by
  refine ⟨?_, ?_, ?_, ?_, ?_, ?_, ?_, ?_, ?_, ?_, ?_, ?_, ?_, ?_, ?_, ?_, ?_, ?_, ?_, ?_, ?_⟩ <;> intros <;> rfl
theorem R_all : (HPC.off.holdsR = false) ∧
    (HPC.boot.holdsR = false) ∧
    (HPC.top.holdsR = false) ∧
    (HPC.test.holdsR = true) ∧
    (HPC.drain.holdsR = false) ∧
    (∀ (k : RequestId), (HPC.popped k).holdsR = false) ∧
    (∀ (k : RequestId), (HPC.find k).holdsR = true) ∧
    (∀ (k : RequestId) (r : Nat), (HPC.enter k r).holdsR = false) ∧
    (∀ (k : RequestId) (r : Nat), (HPC.look k r).holdsR = false) ∧
    (∀ (k : RequestId) (r : Nat) (m : Message), (HPC.work k r m).holdsR = false) ∧
    (∀ (k : RequestId) (r : Nat), (HPC.kept k r).holdsR = false) ∧
    (∀ (k : RequestId) (r : Nat), (HPC.stay k r).holdsR = false) ∧
    (∀ (k : RequestId) (r : Nat), (HPC.part k r).holdsR = false) ∧
    (∀ (k : RequestId) (r : Nat), (HPC.over k r).holdsR = false) ∧
    (∀ (k : RequestId) (r : Nat), (HPC.erase k r).holdsR = false) ∧
    (HPC.relock.holdsR = false) ∧
    (HPC.check.holdsR = false) ∧
    (HPC.judge.holdsR = true) ∧
    (HPC.waiting.holdsR = false) ∧
    (HPC.woken.holdsR = false) ∧
    (HPC.finished.holdsR = false) := by
  refine ⟨?_, ?_, ?_, ?_, ?_, ?_, ?_, ?_, ?_, ?_, ?_, ?_, ?_, ?_, ?_, ?_, ?_, ?_, ?_, ?_, ?_⟩ <;> intros <;> rfl
theorem E_all : (HPC.off.erasing = false) ∧
    (HPC.boot.erasing = false) ∧
    (HPC.top.erasing = false) ∧
    (HPC.test.erasing = false) ∧
    (HPC.drain.erasing = false) ∧
    (∀ (k : RequestId), (HPC.popped k).erasing = false) ∧
    (∀ (k : RequestId), (HPC.find k).erasing = false) ∧
    (∀ (k : RequestId) (r : Nat), (HPC.enter k r).erasing = false) ∧
    (∀ (k : RequestId) (r : Nat), (HPC.look k r).erasing = false) ∧
    (∀ (k : RequestId) (r : Nat) (m : Message), (HPC.work k r m).erasing = false) ∧
    (∀ (k : RequestId) (r : Nat), (HPC.kept k r).erasing = false) ∧
    (∀ (k : RequestId) (r : Nat), (HPC.stay k r).erasing = false) ∧
    (∀ (k : RequestId) (r : Nat), (HPC.part k r).erasing = false) ∧
    (∀ (k : RequestId) (r : Nat), (HPC.over k r).erasing = false) ∧
    (∀ (k : RequestId) (r : Nat), (HPC.erase k r).erasing = true) ∧
    (HPC.relock.erasing = false) ∧
    (HPC.check.erasing = false) ∧
    (HPC.judge.erasing = false) ∧
    (HPC.waiting.erasing = false) ∧
    (HPC.woken.erasing = false) ∧
    (HPC.finished.erasing = false) := by
  refine ⟨?_, ?_, ?_, ?_, ?_, ?_, ?_, ?_, ?_, ?_, ?_, ?_, ?_, ?_, ?_, ?_, ?_, ?_, ?_, ?_, ?_⟩ <;> intros <;> rfl
theorem M_all : (HPC.off.mutexOf = none) ∧
    (HPC.boot.mutexOf = none) ∧
    (HPC.top.mutexOf = none) ∧
    (HPC.test.mutexOf = none) ∧
    (HPC.drain.mutexOf = none) ∧
    (∀ (k : RequestId), (HPC.popped k).mutexOf = none) ∧
    (∀ (k : RequestId), (HPC.find k).mutexOf = none) ∧
    (∀ (k : RequestId) (r : Nat), (HPC.enter k r).mutexOf = some (k, r)) ∧
    (∀ (k : RequestId) (r : Nat), (HPC.look k r).mutexOf = some (k, r)) ∧
    (∀ (k : RequestId) (r : Nat) (m : Message), (HPC.work k r m).mutexOf = some (k, r)) ∧
    (∀ (k : RequestId) (r : Nat), (HPC.kept k r).mutexOf = some (k, r)) ∧
    (∀ (k : RequestId) (r : Nat), (HPC.stay k r).mutexOf = some (k, r)) ∧
    (∀ (k : RequestId) (r : Nat), (HPC.part k r).mutexOf = none) ∧
    (∀ (k : RequestId) (r : Nat), (HPC.over k r).mutexOf = some (k, r)) ∧
    (∀ (k : RequestId) (r : Nat), (HPC.erase k r).mutexOf = some (k, r)) ∧
    (HPC.relock.mutexOf = none) ∧
    (HPC.check.mutexOf = none) ∧
    (HPC.judge.mutexOf = none) ∧
    (HPC.waiting.mutexOf = none) ∧
    (HPC.woken.mutexOf = none) ∧
    (HPC.finished.mutexOf = none) := by
  refine ⟨?_, ?_, ?_, ?_, ?_, ?_, ?_, ?_, ?_, ?_, ?_, ?_, ?_, ?_, ?_, ?_, ?_, ?_, ?_, ?_, ?_⟩ <;> intros <;> rfl
theorem N_all : (HPC.off.holdsM = none) ∧
    (HPC.boot.holdsM = none) ∧
    (HPC.top.holdsM = none) ∧
    (HPC.test.holdsM = none) ∧
    (HPC.drain.holdsM = none) ∧
    (∀ (k : RequestId), (HPC.popped k).holdsM = none) ∧
    (∀ (k : RequestId), (HPC.find k).holdsM = none) ∧
    (∀ (k : RequestId) (r : Nat), (HPC.enter k r).holdsM = some r) ∧
    (∀ (k : RequestId) (r : Nat), (HPC.look k r).holdsM = some r) ∧
    (∀ (k : RequestId) (r : Nat) (m : Message), (HPC.work k r m).holdsM = some r) ∧
    (∀ (k : RequestId) (r : Nat), (HPC.kept k r).holdsM = some r) ∧
    (∀ (k : RequestId) (r : Nat), (HPC.stay k r).holdsM = some r) ∧
    (∀ (k : RequestId) (r : Nat), (HPC.part k r).holdsM = none) ∧
    (∀ (k : RequestId) (r : Nat), (HPC.over k r).holdsM = some r) ∧
    (∀ (k : RequestId) (r : Nat), (HPC.erase k r).holdsM = some r) ∧
    (HPC.relock.holdsM = none) ∧
    (HPC.check.holdsM = none) ∧
    (HPC.judge.holdsM = none) ∧
    (HPC.waiting.holdsM = none) ∧
    (HPC.woken.holdsM = none) ∧
    (HPC.finished.holdsM = none) := by
  refine ⟨?_, ?_, ?_, ?_, ?_, ?_, ?_, ?_, ?_, ?_, ?_, ?_, ?_, ?_, ?_, ?_, ?_, ?_, ?_, ?_, ?_⟩ <;> intros <;> rfl
theorem Q_all : (HPC.off.msgsOf = none) ∧
    (HPC.boot.msgsOf = none) ∧
    (HPC.top.msgsOf = none) ∧
    (HPC.test.msgsOf = none) ∧
    (HPC.drain.msgsOf = none) ∧
    (∀ (k : RequestId), (HPC.popped k).msgsOf = none) ∧
    (∀ (k : RequestId), (HPC.find k).msgsOf = none) ∧
    (∀ (k : RequestId) (r : Nat), (HPC.enter k r).msgsOf = none) ∧
    (∀ (k : RequestId) (r : Nat), (HPC.look k r).msgsOf = some r) ∧
    (∀ (k : RequestId) (r : Nat) (m : Message), (HPC.work k r m).msgsOf = none) ∧
    (∀ (k : RequestId) (r : Nat), (HPC.kept k r).msgsOf = some r) ∧
    (∀ (k : RequestId) (r : Nat), (HPC.stay k r).msgsOf = some r) ∧
    (∀ (k : RequestId) (r : Nat), (HPC.part k r).msgsOf = some r) ∧
    (∀ (k : RequestId) (r : Nat), (HPC.over k r).msgsOf = none) ∧
    (∀ (k : RequestId) (r : Nat), (HPC.erase k r).msgsOf = none) ∧
    (HPC.relock.msgsOf = none) ∧
    (HPC.check.msgsOf = none) ∧
    (HPC.judge.msgsOf = none) ∧
    (HPC.waiting.msgsOf = none) ∧
    (HPC.woken.msgsOf = none) ∧
    (HPC.finished.msgsOf = none) := by
  refine ⟨?_, ?_, ?_, ?_, ?_, ?_, ?_, ?_, ?_, ?_, ?_, ?_, ?_, ?_, ?_, ?_, ?_, ?_, ?_, ?_, ?_⟩ <;> intros <;> rfl
theorem S_all : (HPC.off.sawEmpty = none) ∧
    (HPC.boot.sawEmpty = none) ∧
    (HPC.top.sawEmpty = none) ∧
    (HPC.test.sawEmpty = none) ∧
    (HPC.drain.sawEmpty = none) ∧
    (∀ (k : RequestId), (HPC.popped k).sawEmpty = none) ∧
    (∀ (k : RequestId), (HPC.find k).sawEmpty = none) ∧
    (∀ (k : RequestId) (r : Nat), (HPC.enter k r).sawEmpty = none) ∧
    (∀ (k : RequestId) (r : Nat), (HPC.look k r).sawEmpty = none) ∧
    (∀ (k : RequestId) (r : Nat) (m : Message), (HPC.work k r m).sawEmpty = none) ∧
    (∀ (k : RequestId) (r : Nat), (HPC.kept k r).sawEmpty = some r) ∧
    (∀ (k : RequestId) (r : Nat), (HPC.stay k r).sawEmpty = some r) ∧
    (∀ (k : RequestId) (r : Nat), (HPC.part k r).sawEmpty = some r) ∧
    (∀ (k : RequestId) (r : Nat), (HPC.over k r).sawEmpty = none) ∧
    (∀ (k : RequestId) (r : Nat), (HPC.erase k r).sawEmpty = none) ∧
    (HPC.relock.sawEmpty = none) ∧
    (HPC.check.sawEmpty = none) ∧
    (HPC.judge.sawEmpty = none) ∧
    (HPC.waiting.sawEmpty = none) ∧
    (HPC.woken.sawEmpty = none) ∧
    (HPC.finished.sawEmpty = none) := by
  refine ⟨?_, ?_, ?_, ?_, ?_, ?_, ?_, ?_, ?_, ?_, ?_, ?_, ?_, ?_, ?_, ?_, ?_, ?_, ?_, ?_, ?_⟩ <;> intros <;> rfl
theorem W_all : PPC.idle.holdsW = false ∧ (∀ (k : RequestId) (m : Message), (PPC.note k m).holdsW = false) ∧ (∀ x : Nat, (PPC.lost x).holdsW = false) ∧
    (∀ (x : Nat) (l : List (RequestId × Nat)), (PPC.sweep x l).holdsW = true) ∧ (∀ (k : RequestId) (m : Message), (PPC.call k m).holdsW = false) ∧
    (∀ (k : RequestId) (m : Message), (PPC.route k m).holdsW = true) ∧ (∀ k : RequestId, (PPC.task k).holdsW = false) := by
  refine ⟨?_, ?_, ?_, ?_, ?_, ?_, ?_⟩ <;> intros <;> rfl

theorem notify_T (f : Nat → HPC) (x : Nat) : (if f x = .waiting then HPC.woken else f x).holdsT = (f x).holdsT := by
  split <;> simp_all [T_all]
theorem notify_R (f : Nat → HPC) (x : Nat) : (if f x = .waiting then HPC.woken else f x).holdsR = (f x).holdsR := by
  split <;> simp_all [R_all]
theorem notify_E (f : Nat → HPC) (x : Nat) : (if f x = .waiting then HPC.woken else f x).erasing = (f x).erasing := by
  split <;> simp_all [E_all]
theorem notify_M (f : Nat → HPC) (x : Nat) : (if f x = .waiting then HPC.woken else f x).mutexOf = (f x).mutexOf := by
  split <;> simp_all [M_all]
theorem notify_N (f : Nat → HPC) (x : Nat) : (if f x = .waiting then HPC.woken else f x).holdsM = (f x).holdsM := by
  split <;> simp_all [N_all]
theorem notify_Q (f : Nat → HPC) (x : Nat) : (if f x = .waiting then HPC.woken else f x).msgsOf = (f x).msgsOf := by
  split <;> simp_all [Q_all]
theorem notify_S (f : Nat → HPC) (x : Nat) : (if f x = .waiting then HPC.woken else f x).sawEmpty = (f x).sawEmpty := by
  split <;> simp_all [S_all]
theorem MN {pc : HPC} {k r} (h : pc.mutexOf = some (k, r)) : pc.holdsM = some r := by
  cases pc <;> simp_all [M_all, N_all]
theorem NM {pc : HPC} {r} (h : pc.holdsM = some r) : ∃ k, pc.mutexOf = some (k, r) := by
  cases pc <;> simp_all [M_all, N_all]

/-- The profile of the thread that moves. -/
macro "profile " h:ident : tactic => `(tactic| (
  have pT := congrArg HPC.holdsT $h
  have pR := congrArg HPC.holdsR $h
  have pE := congrArg HPC.erasing $h
  have pM := congrArg HPC.mutexOf $h
  have pN := congrArg HPC.holdsM $h
  have pQ := congrArg HPC.msgsOf $h
  have pS := congrArg HPC.sawEmpty $h
  simp only [T_all, R_all, E_all, M_all, N_all, Q_all, S_all] at pT pR pE pM pN pQ pS))

macro "fields" : tactic => `(tactic| (
  constructor <;> simp only [MSt.goto, MSt.pgoto, MSt.setObj, MSt.touch, MSt.destroy, MSt.notifyAll, put_T, put_R, put_E, put_M, put_N, put_Q, put_S, put_W,
    put_mutex, put_msgs, put_queue, put_alive,
    T_all, R_all, E_all, M_all, N_all, Q_all, S_all, W_all, notify_T, notify_R, notify_E, notify_M, notify_N, notify_Q, notify_S]))

set_option maxHeartbeats 4000000 in
theorem hstep_inv (P : Prog σ) (t : Nat) (s : MSt σ) (es) (s') (I : MInv P s) (h : hstep P t s = some (es, s')) : MInv P s' := by
  obtain ⟨tl, rd, wh, wp, rw', mu, mt, ms, mq, mx, nd, ni, nx, al, off⟩ := I
  have hoff : t < P.threads := by
    apply Nat.lt_of_not_le
    intro hh
    unfold hstep at h
    rw [off t hh] at h
    cases h
  unfold hstep at h
  split at h
  · cases h
  · cases h
  · cases h
  all_goals rename_i hpc
  all_goals profile hpc
  case h_4 =>
    split at h
    · cases h; fields; all_goals grind [put]
    · cases h
  case h_5 =>
    split at h
    · cases h; fields; all_goals grind [put]
    · cases h
  case h_6 =>
    split at h
    · cases h; fields; all_goals grind [put]
    · cases h; fields; all_goals grind [put]
  case h_7 =>
    split at h
    · cases h; fields; all_goals grind [put]
    · cases h; fields; all_goals grind [put]
  case h_8 =>
    split at h
    · split at h
      · cases h; fields; all_goals grind [put]
      · cases h; fields; all_goals grind [put]
    · split at h
      · cases h; fields; all_goals grind [put]
      · cases h
  case h_9 =>
    split at h
    · cases h; fields; all_goals grind [put]
    · rename_i hl
      have hm := mlookup_mem hl
      split at h
      · cases h; fields; all_goals grind [put]
      · cases h; fields; all_goals grind [put]
  case h_10 =>
    have hm := mt t _ (congrArg HPC.mutexOf hpc)
    split at h
    · cases h; fields; all_goals grind [put]
    · cases h
  case h_11 =>
    have hm := mt t _ (congrArg HPC.mutexOf hpc)
    split at h
    · cases h; fields; all_goals grind [put]
    · cases h; fields; all_goals grind [put]
  case h_12 =>
    have hm := mt t _ (congrArg HPC.mutexOf hpc)
    dsimp only at h
    cases hx : (P.handle (s.objs _).state _).2
    · rw [hx] at h; cases h; simp only [Bool.false_eq_true, if_false]; fields; all_goals grind [put]
    · rw [hx] at h; cases h; simp only [if_true]; fields; all_goals grind [put]
  case h_13 =>
    have hm := mt t _ (congrArg HPC.mutexOf hpc)
    split at h
    · cases h; fields; all_goals grind [put]
    · cases h; fields; all_goals grind [put]
  case h_14 =>
    have hm := mt t _ (congrArg HPC.mutexOf hpc)
    cases h; fields; all_goals grind [put]
  case h_15 =>
    cases h; fields; all_goals grind [put]
  case h_16 =>
    split at h
    · cases h; fields; all_goals grind [put]
    · cases h
  case h_17 =>
    have hm := mt t _ (congrArg HPC.mutexOf hpc)
    cases h; fields; all_goals grind [put, MN, NM]
  case h_18 =>
    split at h
    · cases h; fields; all_goals grind [put]
    · cases h
  case h_19 =>
    split at h
    · cases h; fields; all_goals grind [put]
    · cases h
  case h_20 =>
    split at h
    · cases h; fields; all_goals grind [put]
    · cases h; fields; all_goals grind [put]
  case h_21 =>
    split at h
    · cases h; fields; all_goals grind [put]
    · cases h

end Fcgi.Model
