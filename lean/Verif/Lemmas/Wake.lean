import Verif.Model.Wake
import Verif.Spec.WakeTerms
/-! # Invariants of the transceiver's thread -/
namespace Fcgi.Model
open Fcgi.Spec

/-- In `poll`, and it will not sleep before it returns. -/
def RPC.brisk : RPC → Bool
  | .look false | .refresh false | .readd false | .clear false | .wait false | .admit false => true
  | _ => false

/-- It may go to sleep without another look at the queue. -/
def RPC.nap : RPC → Bool
  | .test true | .look true | .refresh true | .readd true | .clear true | .wait true | .admit true | .asleep => true
  | _ => false

/-- The same, without another look at the flags. -/
def RPC.doze : RPC → Bool
  | .look true | .refresh true | .readd true | .clear true | .wait true | .admit true | .asleep => true
  | _ => false

/-- The record it has taken from the queue. -/
def RPC.hand : RPC → List Nat
  | .write r | .putback r => [r]
  | _ => []

structure WakeInv (tr : List WEvent) (s : WSt) : Prop where
  ch : s.waking = true ∧ s.bytes = 1 ∨ s.waking = false ∧ s.bytes = 0
  dr : s.rx = .drain → s.bytes = 1
  st : s.stuck = false
  un : unanswered tr = true → s.bytes = 1 ∨ s.rx.brisk = true
  qu : s.rx.nap = true → s.queue ≠ [] → s.bytes = 1 ∨ ∃ i, s.tx i = .wake
  fi : queuedIn tr = writtenIn tr ++ s.rx.hand ++ s.queue
  te : s.rx.doze = true → s.term = true → s.bytes = 1 ∨ ∃ sp, s.ctl = .wake sp
  so : s.rx.doze = true → s.stop = true → s.sockets = 0 → s.bytes = 1 ∨ s.ctl = .wake false ∨ s.ctl = .acc1 false false ∨
    s.ctl = .acc2 false false ∨ s.ctl = .acc0 false false ∧ s.accept = true
  ac : s.stop = false → s.accept = true ∨ s.ctl = .start1 ∨ s.ctl = .acc0 true true ∨ s.ctl = .acc1 true true ∨ s.ctl = .acc2 true true
  cf : ∀ v sp, s.ctl = .acc0 v sp ∨ s.ctl = .acc1 v sp ∨ s.ctl = .acc2 v sp → v = sp ∧ (v = false → s.stop = true) ∧ (v = true → s.stop = false)
  sa : s.stop = true → s.rx ≠ .off → s.accept = false ∨ s.ctl = .acc0 false false ∨ s.ctl = .acc1 false false ∨ s.ctl = .acc2 false false
  wk : (s.ctl = .wake true ∨ s.ctl = .start1 ∨ s.ctl = .spawn) → s.stop = false

theorem unanswered_append (tr e) : unanswered (tr ++ [e]) = match e with | .woke => true | .returned => false | _ => unanswered tr := by
  simp only [unanswered, List.foldl_append, List.foldl_cons, List.foldl_nil]
  cases e <;> rfl
theorem queuedIn_append (tr e) : queuedIn (tr ++ [e]) = queuedIn tr ++ match e with | .queued r => [r] | _ => [] := by
  cases e <;> simp [queuedIn]
theorem writtenIn_append (tr e) : writtenIn (tr ++ [e]) = writtenIn tr ++ match e with | .written r => [r] | _ => [] := by
  cases e <;> simp [writtenIn]
theorem brisk_all : (RPC.off.brisk = false) ∧ (∀ b, (RPC.test b).brisk = false) ∧ (∀ b, (RPC.look b).brisk = !b) ∧ (∀ b, (RPC.refresh b).brisk = !b) ∧
    (∀ b, (RPC.readd b).brisk = !b) ∧ (∀ b, (RPC.clear b).brisk = !b) ∧ (∀ b, (RPC.wait b).brisk = !b) ∧ RPC.asleep.brisk = false ∧
    RPC.drain.brisk = false ∧ (∀ b, (RPC.admit b).brisk = !b) ∧ RPC.back.brisk = false ∧ RPC.tx.brisk = false ∧ (∀ r, (RPC.write r).brisk = false) ∧
    (∀ r, (RPC.putback r).brisk = false) ∧ RPC.finished.brisk = false := by
  refine ⟨rfl, ?_, ?_, ?_, ?_, ?_, ?_, rfl, rfl, ?_, rfl, rfl, ?_, ?_, rfl⟩ <;> first | (intro b; cases b <;> rfl) | (intro r; rfl)
theorem nap_all : (RPC.off.nap = false) ∧ (∀ b, (RPC.test b).nap = b) ∧ (∀ b, (RPC.look b).nap = b) ∧ (∀ b, (RPC.refresh b).nap = b) ∧
    (∀ b, (RPC.readd b).nap = b) ∧ (∀ b, (RPC.clear b).nap = b) ∧ (∀ b, (RPC.wait b).nap = b) ∧ RPC.asleep.nap = true ∧
    RPC.drain.nap = false ∧ (∀ b, (RPC.admit b).nap = b) ∧ RPC.back.nap = false ∧ RPC.tx.nap = false ∧ (∀ r, (RPC.write r).nap = false) ∧
    (∀ r, (RPC.putback r).nap = false) ∧ RPC.finished.nap = false := by
  refine ⟨rfl, ?_, ?_, ?_, ?_, ?_, ?_, rfl, rfl, ?_, rfl, rfl, ?_, ?_, rfl⟩ <;> first | (intro b; cases b <;> rfl) | (intro r; rfl)
theorem doze_all : (RPC.off.doze = false) ∧ (∀ b, (RPC.test b).doze = false) ∧ (∀ b, (RPC.look b).doze = b) ∧ (∀ b, (RPC.refresh b).doze = b) ∧
    (∀ b, (RPC.readd b).doze = b) ∧ (∀ b, (RPC.clear b).doze = b) ∧ (∀ b, (RPC.wait b).doze = b) ∧ RPC.asleep.doze = true ∧
    RPC.drain.doze = false ∧ (∀ b, (RPC.admit b).doze = b) ∧ RPC.back.doze = false ∧ RPC.tx.doze = false ∧ (∀ r, (RPC.write r).doze = false) ∧
    (∀ r, (RPC.putback r).doze = false) ∧ RPC.finished.doze = false := by
  refine ⟨rfl, ?_, ?_, ?_, ?_, ?_, ?_, rfl, rfl, ?_, rfl, rfl, ?_, ?_, rfl⟩ <;> first | (intro b; cases b <;> rfl) | (intro r; rfl)
theorem hand_all : (RPC.off.hand = []) ∧ (∀ b, (RPC.test b).hand = []) ∧ (∀ b, (RPC.look b).hand = []) ∧ (∀ b, (RPC.refresh b).hand = []) ∧
    (∀ b, (RPC.readd b).hand = []) ∧ (∀ b, (RPC.clear b).hand = []) ∧ (∀ b, (RPC.wait b).hand = []) ∧ RPC.asleep.hand = [] ∧
    RPC.drain.hand = [] ∧ (∀ b, (RPC.admit b).hand = []) ∧ RPC.back.hand = [] ∧ RPC.tx.hand = [] ∧ (∀ r, (RPC.write r).hand = [r]) ∧
    (∀ r, (RPC.putback r).hand = [r]) ∧ RPC.finished.hand = [] := by
  refine ⟨rfl, ?_, ?_, ?_, ?_, ?_, ?_, rfl, rfl, ?_, rfl, rfl, ?_, ?_, rfl⟩ <;> (intro b; rfl)

macro "wfin" : tactic => `(tactic| (
  constructor <;>
  (try simp only [List.append_nil, unanswered_append, queuedIn_append, writtenIn_append, brisk_all, nap_all, doze_all, hand_all, WSt.wake]) <;> grind [RPC.brisk, RPC.hand]))

set_option maxHeartbeats 1000000 in
theorem rstep_winv {f s es s' tr} (I : WakeInv tr s) (h : rstep f s = some (es, s')) : WakeInv (tr ++ es) s' := by
  obtain ⟨ch, dr, st, un, qu, fi, te, so, ac, cf, sa, wk⟩ := I
  unfold rstep at h
  split at h
  all_goals rename_i hpc
  all_goals (rw [hpc] at un qu fi te so dr; simp only [brisk_all, nap_all, doze_all, hand_all] at un qu fi te so)
  all_goals repeat' split at h
  all_goals first
    | (cases h; done)
    | (cases h; wfin; done)
    | (generalize hr : f.ready = rd at *; cases rd <;> simp only [WSt.got, WSt.reports] at * <;> cases h <;> wfin)

theorem cstep_winv {s es s' tr} (I : WakeInv tr s) (h : cstep s = some (es, s')) : WakeInv (tr ++ es) s' := by
  obtain ⟨ch, dr, st, un, qu, fi, te, so, ac, cf, sa, wk⟩ := I
  unfold cstep at h
  split at h
  all_goals rename_i hpc
  all_goals (simp only [hpc] at te so ac cf sa wk)
  all_goals repeat' split at h
  all_goals first
    | (cases h; done)
    | (cases h; wfin; done)

theorem sstep_winv {i s es s' tr} (I : WakeInv tr s) (h : sstep i s = some (es, s')) : WakeInv (tr ++ es) s' := by
  obtain ⟨ch, dr, st, un, qu, fi, te, so, ac, cf, sa, wk⟩ := I
  unfold sstep at h
  split at h
  all_goals rename_i hpc
  all_goals first
    | (cases h; done)
    | (cases h; wfin; done)

theorem call_winv {c s s' tr} (I : WakeInv tr s) (h : wcall c s = some s') : WakeInv tr s' := by
  obtain ⟨ch, dr, st, un, qu, fi, te, so, ac, cf, sa, wk⟩ := I
  unfold wcall at h
  split at h
  all_goals split at h
  all_goals first
    | (cases h; done)
    | (cases h; wfin; done)

theorem step_winv {s es s' tr} (I : WakeInv tr s) (h : WStep s es s') : WakeInv (tr ++ es) s' := by
  cases h with
  | rx f h => exact rstep_winv I h
  | ctl h => exact cstep_winv I h
  | tx i h => exact sstep_winv I h
  | call c h => rw [List.append_nil]; exact call_winv I h

theorem run_winv' {a b c n tr s} (h : WRun (wInit a b c n) tr s) : WakeInv tr s := by
  induction h with
  | refl => constructor <;> simp [wInit, unanswered, queuedIn, writtenIn, brisk_all, nap_all, doze_all, hand_all]
  | step _ h ih => exact step_winv ih h

theorem quiet_ctl {s} (h : cstep s = none) : s.ctl = .idle := by
  unfold cstep at h
  split at h
  · assumption
  all_goals cases h

theorem quiet_tx {s i} (h : sstep i s = none) : s.tx i = .idle := by
  unfold sstep at h
  split at h
  · assumption
  all_goals cases h

theorem quiet_rx {tr s} (I : WakeInv tr s) (h : ∀ f : Fate, f.ready = .wakeup ∨ f.ready = .nothing → rstep f s = none) :
    s.rx = .off ∨ s.rx = .finished ∨ s.rx = .asleep ∧ s.bytes = 0 := by
  have h1 := h ⟨.wakeup, .part, false⟩ (Or.inl rfl)
  have h2 := h ⟨.nothing, .part, false⟩ (Or.inr rfl)
  unfold rstep at h1 h2
  have := I.ch
  cases hr : s.rx <;> simp only [hr] at h1 h2 <;> simp_all
  all_goals grind [WSt.reports]

/-! ### The listeners in the poll set -/

theorem WRunIn.run {ok s tr s'} (h : WRunIn ok s tr s') : WRun s tr s' := by
  induction h with
  | refl => exact .refl _
  | step _ h _ ih => exact .step ih h

theorem WRunIn.last {ok s tr s'} (h : WRunIn ok s tr s') : ok s' := by
  cases h <;> assumption

structure PInv (s : WSt) : Prop where
  po : s.refresh = true ∨ s.polled = (s.listeners && s.accept)
  pc : ∀ b, s.rx = .clear b → s.polled = (s.listeners && s.accept)
  pr : s.refresh = true → s.rx = .wait true ∨ s.rx = .asleep → s.bytes = 1 ∨ (∃ v sp, s.ctl = .acc2 v sp) ∨ ∃ sp, s.ctl = .wake sp
  pb : ∀ b, s.rx = .readd b ∨ s.rx = .clear b → s.refresh = true
  pa : ∀ v sp, s.ctl = .acc2 v sp → s.refresh = true

theorem step_pinv {tr s es s'} (I : WakeInv tr s) (Q : PInv s) (u : Unraced s) (h : WStep s es s') : PInv s' := by
  obtain ⟨po, pc, pr, pb, pa⟩ := Q
  have ch := I.ch
  have dr := I.dr
  clear I
  have u : ∀ v sp b, s.ctl = .acc2 v sp → s.rx ≠ .readd b ∧ s.rx ≠ .clear b := fun v sp b h => u ⟨v, sp, h⟩ b
  cases h with
  | rx f h =>
    unfold rstep at h
    split at h
    all_goals rename_i hpc
    all_goals repeat' split at h
    all_goals first
      | (cases h; done)
      | (cases h; constructor <;> grind)
      | (generalize hr : f.ready = rd at *; cases rd <;> simp only [WSt.got, WSt.reports] at * <;> cases h <;> constructor <;> grind)
  | ctl h =>
    unfold cstep at h
    split at h
    all_goals rename_i hpc
    all_goals repeat' split at h
    all_goals first
      | (cases h; done)
      | (cases h; constructor <;> grind [WSt.wake])
  | tx i h =>
    unfold sstep at h
    split at h
    all_goals rename_i hpc
    all_goals first
      | (cases h; done)
      | (cases h; constructor <;> grind [WSt.wake])
  | call c h =>
    unfold wcall at h
    split at h
    all_goals split at h
    all_goals first
      | (cases h; done)
      | (cases h; constructor <;> grind)

theorem run_pinv {a b c n tr s} (h : WRunIn Unraced (wInit a b c n) tr s) : PInv s := by
  induction h with
  | refl => constructor <;> simp [wInit]
  | step hr h _ ih => exact step_pinv (run_winv' hr.run) ih hr.last h

/-! ### Runs by choices -/

inductive WChoice where
  | rx (f : Fate) | ctl | tx (i : Nat) | call (c : WCall)

def wchoose (s : WSt) : WChoice → Option (List WEvent × WSt)
  | .rx f => rstep f s
  | .ctl => cstep s
  | .tx i => sstep i s
  | .call c => (wcall c s).map ([], ·)

def wplay (s : WSt) : List WChoice → Option (List WEvent × WSt)
  | [] => some ([], s)
  | c :: cs =>
    match wchoose s c with
    | none => none
    | some (es, s') =>
      match wplay s' cs with
      | none => none
      | some (tr, s'') => some (es ++ tr, s'')

theorem WRun.trans {s tr s' tr' s''} (h : WRun s tr s') (h' : WRun s' tr' s'') : WRun s (tr ++ tr') s'' := by
  induction h' with
  | refl => simpa using h
  | step _ hs ih => rw [← List.append_assoc]; exact .step ih hs

theorem wplay_run {cs : List WChoice} : ∀ {s tr s'}, wplay s cs = some (tr, s') → WRun s tr s' := by
  induction cs with
  | nil => intro s tr s' h; cases h; exact .refl _
  | cons c cs ih =>
    intro s tr s' h
    unfold wplay at h
    split at h
    · cases h
    · rename_i es s1 hc
      split at h
      · cases h
      · rename_i tr' s2 hp
        cases h
        have st : WStep s es s1 := by
          cases c with
          | rx f => exact .rx f hc
          | ctl => exact .ctl hc
          | tx i => exact .tx i hc
          | call c =>
            simp only [wchoose, Option.map_eq_some_iff] at hc
            obtain ⟨a, ha, hb⟩ := hc
            cases hb; exact .call c ha
        have := WRun.trans (.step (.refl s) st) (ih hp)
        simpa using this

def WChoice.elsewhere : WChoice → Bool
  | .tx i => i != 0
  | .call (.send i _) => i != 0
  | _ => false

theorem wplay_tx {cs : List WChoice} : ∀ {s tr s'}, wplay s cs = some (tr, s') → cs.any WChoice.elsewhere = false →
    ∀ q, q ≠ 0 → s'.tx q = s.tx q := by
  induction cs with
  | nil => intro s tr s' h _ q _; cases h; rfl
  | cons c cs ih =>
    intro s tr s' h he q hq
    simp only [List.any_cons, Bool.or_eq_false_iff] at he
    unfold wplay at h
    split at h
    · cases h
    · rename_i es s1 hc
      split at h
      · cases h
      · rename_i tr' s2 hp
        cases h
        rw [ih hp he.2 q hq]
        clear ih hp
        cases c with
        | rx f =>
          simp only [wchoose] at hc
          unfold rstep at hc
          split at hc
          all_goals repeat' split at hc
          all_goals first
            | (cases hc; done)
            | (cases hc; rfl)
            | (generalize f.ready = rd at *; cases rd <;> simp only [WSt.got] at hc <;> cases hc <;> rfl)
        | ctl =>
          simp only [wchoose] at hc
          unfold cstep at hc
          split at hc
          all_goals first
            | (cases hc; done)
            | (cases hc; rfl)
            | (cases hc; simp only [WSt.wake]; split <;> rfl)
        | tx i =>
          have hi : i = 0 := by simpa [WChoice.elsewhere] using he.1
          subst hi
          simp only [wchoose] at hc
          unfold sstep at hc
          split at hc
          all_goals first
            | (cases hc; done)
            | (cases hc; simp [hq])
        | call c =>
          simp only [wchoose, Option.map_eq_some_iff] at hc
          obtain ⟨a, ha, hb⟩ := hc
          cases hb
          unfold wcall at ha
          split at ha
          case h_5 i r =>
            have hi : i = 0 := by simpa [WChoice.elsewhere] using he.1
            subst hi
            split at ha
            · cases ha; simp [hq]
            · cases ha
          all_goals (split at ha <;> first | (cases ha; done) | (cases ha; rfl))

theorem quiet_of {s : WSt} (h1 : s.ctl = .idle) (h2 : ∀ i, s.tx i = .idle) (h3 : s.rx = .off ∨ s.rx = .finished ∨ s.rx = .asleep ∧ s.bytes = 0) : AtRest s := by
  refine ⟨by unfold cstep; rw [h1], fun i => by unfold sstep; rw [h2 i], fun f hf => ?_⟩
  unfold rstep
  rcases h3 with h | h | ⟨h, hb⟩ <;> rw [h]
  dsimp only
  rw [if_neg]
  rcases hf with hf | hf <;> rw [hf] <;> simp [WSt.reports, hb]

/-- What a run by choices that uses only sender 0 finds at its end. -/
theorem wplay_any {cs : List WChoice} {a b c n} {f : List WEvent × WSt → Bool} (h : (wplay (wInit a b c n) cs).any f = true) :
    ∃ tr s, WRun (wInit a b c n) tr s ∧ f (tr, s) = true ∧
      (cs.any WChoice.elsewhere = false → s.tx 0 = .idle → s.ctl = .idle → (s.rx = .off ∨ s.rx = .finished ∨ s.rx = .asleep ∧ s.bytes = 0) → AtRest s) := by
  cases hp : wplay (wInit a b c n) cs with
  | none => rw [hp] at h; cases h
  | some y =>
    rw [hp] at h
    refine ⟨y.1, y.2, wplay_run hp, h, fun h1 h2 h3 h4 => quiet_of h3 (fun q => ?_) h4⟩
    by_cases hq : q = 0
    · subst hq; exact h2
    · rw [wplay_tx hp h1 q hq]; rfl

/-- At most one event per step, and what going to sleep presupposes. -/
theorem step_slept {s es s'} (h : WStep s es s') : es.length ≤ 1 ∧ (.slept ∈ es → s.rx = .wait true ∧ s.bytes = 0) := by
  cases h with
  | rx f hf =>
    unfold rstep at hf
    split at hf
    case h_8 b hpc =>
      split at hf
      · rename_i h1
        split at hf
        · rename_i h2
          cases hf
          rw [h2.1] at h1
          simp only [WSt.reports, beq_iff_eq] at h1
          exact ⟨by simp, fun _ => ⟨by rw [hpc, h2.2], h1⟩⟩
        · generalize f.ready = rd at *
          cases rd <;> simp only [WSt.got] at hf <;> cases hf <;> simp
      · cases hf
    all_goals repeat' split at hf
    all_goals first
      | (cases hf; done)
      | (cases hf; simp; done)
      | (generalize f.ready = rd at *; cases rd <;> simp only [WSt.got] at hf <;> cases hf <;> simp)
  | ctl hf =>
    unfold cstep at hf
    split at hf
    all_goals first
      | (cases hf; done)
      | (cases hf; simp; done)
  | tx i hf =>
    unfold sstep at hf
    split at hf
    all_goals first
      | (cases hf; done)
      | (cases hf; simp; done)
  | call c hf => simp

/-- `Unraced`, by computation. -/
def unraced (s : WSt) : Bool :=
  match s.ctl, s.rx with
  | .acc2 _ _, .readd _ => false
  | .acc2 _ _, .clear _ => false
  | _, _ => true

theorem unraced_iff {s} (h : unraced s = true) : Unraced s := by
  rintro ⟨v, sp, hc⟩ b
  unfold unraced at h
  rw [hc] at h
  constructor <;> intro hr <;> rw [hr] at h <;> cases h

/-- A run by choices all of whose states are unraced. -/
def wplayU (s : WSt) : List WChoice → Option (List WEvent × WSt)
  | [] => if unraced s then some ([], s) else none
  | c :: cs =>
    if unraced s then
      match wchoose s c with
      | none => none
      | some (es, s') =>
        match wplayU s' cs with
        | none => none
        | some (tr, s'') => some (es ++ tr, s'')
    else none

theorem WRunIn.first {ok s es s1 tr s'} (h0 : ok s) (h : WStep s es s1) (h' : WRunIn ok s1 tr s') : WRunIn ok s (es ++ tr) s' := by
  induction h' with
  | refl h1 => have := WRunIn.step (.refl s h0) h h1; simpa using this
  | step _ hs hok ih => rw [← List.append_assoc]; exact .step ih hs hok

theorem wplayU_run {cs : List WChoice} : ∀ {s tr s'}, wplayU s cs = some (tr, s') → WRunIn Unraced s tr s' := by
  induction cs with
  | nil =>
    intro s tr s' h
    unfold wplayU at h
    split at h
    · rename_i hu; cases h; exact .refl _ (unraced_iff hu)
    · cases h
  | cons c cs ih =>
    intro s tr s' h
    unfold wplayU at h
    split at h
    · rename_i hu
      split at h
      · cases h
      · rename_i es s1 hc
        split at h
        · cases h
        · rename_i tr' s2 hp
          cases h
          refine .first (unraced_iff hu) ?_ (ih hp)
          cases c with
          | rx f => exact .rx f hc
          | ctl => exact .ctl hc
          | tx i => exact .tx i hc
          | call c =>
            simp only [wchoose, Option.map_eq_some_iff] at hc
            obtain ⟨a, ha, hb⟩ := hc
            cases hb; exact .call c ha
    · cases h

end Fcgi.Model
