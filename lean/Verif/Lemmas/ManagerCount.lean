import Verif.Lemmas.ManagerLoss
import Verif.Spec.ManagerTerms
/-! # Counting: the threads' own steps come to an end -/
namespace Fcgi.Model
open Fcgi.Spec
variable {σ : Type}

def total (f : Nat → Nat) : Nat → Nat
  | 0 => 0
  | n + 1 => total f n + f n

theorem total_congr {f g : Nat → Nat} {n : Nat} (h : ∀ i, i < n → f i = g i) : total f n = total g n := by
  induction n with
  | zero => rfl
  | succ n ih => rw [total, total, ih (fun i hi => h i (by omega)), h n (by omega)]
theorem total_le {f g : Nat → Nat} {n c : Nat} (h : ∀ i, i < n → f i ≤ g i + c) : total f n ≤ total g n + c * n := by
  induction n with
  | zero => simp [total]
  | succ n ih =>
    have h1 := ih (fun i hi => h i (by omega))
    have h2 := h n (by omega)
    rw [total, total, Nat.mul_succ]; omega
theorem le_total {f : Nat → Nat} {n i : Nat} (h : i < n) : f i ≤ total f n := by
  induction n with
  | zero => omega
  | succ n ih =>
    rw [total]
    by_cases hi : i = n
    · subst hi; omega
    · have := ih (by omega); omega
theorem total_put {α} (f : α → Nat) (g : Nat → α) {i n : Nat} (h : i < n) (v : α) :
    total (fun x => f (put g i v x)) n + f (g i) = total (fun x => f (g x)) n + f v := by
  induction n with
  | zero => omega
  | succ n ih =>
    rw [total, total]
    by_cases hi : i = n
    · subst hi
      rw [put_same, total_congr (g := fun x => f (g x))]
      · omega
      · intro j hj; rw [put_other _ _ _ (by omega)]
    · rw [put_other _ _ _ (Ne.symm hi)]
      have := ih (by omega); omega
theorem total_sub {α} (f : α → Nat) (g : Nat → α) {i n : Nat} (h : i < n) (v : α) :
    total (fun x => f (put g i v x)) n = total (fun x => f (g x)) n + f v - f (g i) := by
  have := total_put f g h v; omega

/-- How far a thread is from waiting; `n` is the number of threads. -/
def HPC.rank (n : Nat) : HPC → Nat
  | .off => 0
  | .finished => 0
  | .waiting => 6 * n + 1
  | .judge => 6 * n + 1 + 1
  | .check => 6 * n + 1 + 2
  | .drain => 6 * n + 1 + 3
  | .test => 6 * n + 1 + 4
  | .relock => 6 * n + 1 + 4
  | .top => 6 * n + 1 + 5
  | .part _ _ => 6 * n + 1 + 5
  | .erase _ _ => 6 * n + 1 + 5
  | .boot => 6 * n + 1 + 6
  | .woken => 6 * n + 1 + 6
  | .stay _ _ => 6 * n + 1 + 6
  | .over _ _ => 6 * n + 1 + 6
  | .kept _ _ => 6 * n + 1 + 7
  | .look _ _ => 6 * n + 1 + 8
  | .enter _ _ => 6 * n + 1 + 9
  | .work _ _ _ => 6 * n + 1 + 10
  | .find _ => 6 * n + 1 + 10
  | .popped _ => 6 * n + 1 + 11

/-- How much a call of push has left to do. -/
def PPC.rank : PPC → Nat
  | .idle => 0
  | .task _ => 16
  | .note _ _ => 17
  | .route _ _ => 20
  | .call _ _ => 21
  | .lost _ => 1
  | .sweep _ l => 1 + l.length

def PPC.asksSweep : PPC → Nat
  | .lost _ => 1
  | _ => 0

theorem hrank_all : (∀ (n : Nat) , HPC.off.rank n = 0) ∧
    (∀ (n : Nat) , HPC.boot.rank n = 6 * n + 1 + 6) ∧
    (∀ (n : Nat) , HPC.top.rank n = 6 * n + 1 + 5) ∧
    (∀ (n : Nat) , HPC.test.rank n = 6 * n + 1 + 4) ∧
    (∀ (n : Nat) , HPC.drain.rank n = 6 * n + 1 + 3) ∧
    (∀ (n : Nat) (k : RequestId), (HPC.popped k).rank n = 6 * n + 1 + 11) ∧
    (∀ (n : Nat) (k : RequestId), (HPC.find k).rank n = 6 * n + 1 + 10) ∧
    (∀ (n : Nat) (k : RequestId) (r : Nat), (HPC.enter k r).rank n = 6 * n + 1 + 9) ∧
    (∀ (n : Nat) (k : RequestId) (r : Nat), (HPC.look k r).rank n = 6 * n + 1 + 8) ∧
    (∀ (n : Nat) (k : RequestId) (r : Nat) (m : Message), (HPC.work k r m).rank n = 6 * n + 1 + 10) ∧
    (∀ (n : Nat) (k : RequestId) (r : Nat), (HPC.kept k r).rank n = 6 * n + 1 + 7) ∧
    (∀ (n : Nat) (k : RequestId) (r : Nat), (HPC.stay k r).rank n = 6 * n + 1 + 6) ∧
    (∀ (n : Nat) (k : RequestId) (r : Nat), (HPC.part k r).rank n = 6 * n + 1 + 5) ∧
    (∀ (n : Nat) (k : RequestId) (r : Nat), (HPC.over k r).rank n = 6 * n + 1 + 6) ∧
    (∀ (n : Nat) (k : RequestId) (r : Nat), (HPC.erase k r).rank n = 6 * n + 1 + 5) ∧
    (∀ (n : Nat) , HPC.relock.rank n = 6 * n + 1 + 4) ∧
    (∀ (n : Nat) , HPC.check.rank n = 6 * n + 1 + 2) ∧
    (∀ (n : Nat) , HPC.judge.rank n = 6 * n + 1 + 1) ∧
    (∀ (n : Nat) , HPC.waiting.rank n = 6 * n + 1) ∧
    (∀ (n : Nat) , HPC.woken.rank n = 6 * n + 1 + 6) ∧
    (∀ (n : Nat) , HPC.finished.rank n = 0) := by
  refine ⟨?_, ?_, ?_, ?_, ?_, ?_, ?_, ?_, ?_, ?_, ?_, ?_, ?_, ?_, ?_, ?_, ?_, ?_, ?_, ?_, ?_⟩ <;> intros <;> rfl
theorem prank_all : (PPC.idle.rank = 0) ∧
    (∀ (k : RequestId), (PPC.task k).rank = 16) ∧
    (∀ (k : RequestId) (m : Message), (PPC.note k m).rank = 17) ∧
    (∀ (k : RequestId) (m : Message), (PPC.route k m).rank = 20) ∧
    (∀ (k : RequestId) (m : Message), (PPC.call k m).rank = 21) ∧
    (∀ (x : Nat), (PPC.lost x).rank = 1) ∧
    (∀ (x : Nat) (l : List (RequestId × Nat)), (PPC.sweep x l).rank = 1 + l.length) := by
  refine ⟨?_, ?_, ?_, ?_, ?_, ?_, ?_⟩ <;> intros <;> rfl
theorem asks_all : (PPC.idle.asksSweep = 0) ∧
    (∀ (k : RequestId), (PPC.task k).asksSweep = 0) ∧
    (∀ (k : RequestId) (m : Message), (PPC.note k m).asksSweep = 0) ∧
    (∀ (k : RequestId) (m : Message), (PPC.route k m).asksSweep = 0) ∧
    (∀ (k : RequestId) (m : Message), (PPC.call k m).asksSweep = 0) ∧
    (∀ (x : Nat), (PPC.lost x).asksSweep = 1) ∧
    (∀ (x : Nat) (l : List (RequestId × Nat)), (PPC.sweep x l).asksSweep = 0) := by
  refine ⟨?_, ?_, ?_, ?_, ?_, ?_, ?_⟩ <;> intros <;> rfl

/-- What is left to do; calls numbered `N` and above are idle. -/
def MSt.left (P : Prog σ) (N : Nat) (s : MSt σ) : Nat :=
  9 * s.tasks.length + 3 * total (fun r => (s.objs r).queue.length) s.next + total (fun t => (s.th t).rank P.threads) P.threads +
    total (fun p => (s.pu p).rank) N

theorem total_notify (n : Nat) (f : Nat → HPC) :
    total (fun x => (if f x = .waiting then HPC.woken else f x).rank n) n ≤ total (fun x => (f x).rank n) n + 6 * n := by
  apply total_le
  intro i _
  split
  · rename_i h; rw [h]; simp [hrank_all]
  · omega

theorem q_sub (objs : Nat → Obj σ) {r n : Nat} (h : r < n) (o : Obj σ) :
    total (fun x => (put objs r o x).queue.length) n = total (fun x => (objs x).queue.length) n + o.queue.length - (objs r).queue.length :=
  total_sub (fun o => o.queue.length) objs h o

/-- Every step of a handler thread reduces what is left to do. -/
theorem hstep_left (P : Prog σ) (N t : Nat) (s : MSt σ) (es) (s') (I : MInv P s) (h : hstep P t s = some (es, s')) :
    s'.left P N < s.left P N ∧ s'.pu = s.pu := by
  refine ⟨?_, (hstep_table P t s es s' h).1⟩
  have ht : t < P.threads := by
    apply Nat.lt_of_not_le
    intro hh
    unfold hstep at h
    rw [I.off t hh] at h
    cases h
  have hle := le_total (f := fun x => (s.th x).rank P.threads) ht
  have sub := fun pc => total_sub (fun pc : HPC => pc.rank P.threads) s.th ht pc
  unfold hstep at h
  split at h
  all_goals rename_i hpc
  all_goals rw [hpc] at hle sub
  all_goals (try have hm := I.nx _ (I.mt t _ (congrArg HPC.mutexOf hpc)))
  all_goals (try have hx := I.mx t _ (congrArg HPC.msgsOf hpc))
  case h_9 =>
    split at h
    · cases h; simp only [MSt.left, MSt.goto, sub, hrank_all] at *; omega
    · rename_i hl
      have hm := I.nx _ (mlookup_mem hl)
      split at h
      · cases h; simp only [MSt.left, MSt.goto, MSt.setObj, MSt.touch, sub, q_sub _ hm, hrank_all] at *; omega
      · cases h; simp only [MSt.left, MSt.goto, MSt.touch, sub, hrank_all] at *; omega
  case h_11 =>
    have hq := le_total (f := fun r => (s.objs r).queue.length) hm
    split at h
    · cases h; simp only [MSt.left, MSt.goto, MSt.touch, sub, hrank_all] at *; omega
    · rename_i hq'
      cases h; simp only [MSt.left, MSt.goto, MSt.setObj, MSt.touch, sub, q_sub _ hm, hrank_all, hq', List.length_cons] at *; omega
  case h_12 =>
    have hq := le_total (f := fun r => (s.objs r).queue.length) hm
    cases h
    simp only [MSt.left, MSt.goto, MSt.setObj, MSt.touch, sub, q_sub _ hm, hrank_all] at *
    split <;> (simp only [hrank_all] at *; omega)
  case h_17 =>
    have hq := le_total (f := fun r => (s.objs r).queue.length) hm
    cases h
    simp only [MSt.left, MSt.goto, MSt.setObj, MSt.touch, MSt.destroy, sub, q_sub _ hm, hrank_all, put_same] at *
    omega
  case h_20 =>
    split at h
    · cases h
      have hn := total_notify P.threads s.th
      have h2 := total_put (fun pc : HPC => pc.rank P.threads) (fun x => if s.th x = .waiting then HPC.woken else s.th x) ht .finished
      have h3 : (if s.th t = .waiting then HPC.woken else s.th t) = .judge := by rw [hpc]; rfl
      rw [h3] at h2
      simp only [MSt.left, MSt.goto, MSt.notifyAll, hrank_all] at *
      omega
    · cases h; simp only [MSt.left, MSt.goto, sub, hrank_all] at *; omega
  all_goals (try have hq := le_total (f := fun r => (s.objs r).queue.length) hm)
  all_goals (try have hq := le_total (f := fun r => (s.objs r).queue.length) hx)
  all_goals repeat' split at h
  all_goals first
    | (cases h; done)
    | (cases h; simp only [MSt.left, MSt.goto, MSt.setObj, MSt.touch, sub, hrank_all] at *; omega)
    | (cases h; simp only [MSt.left, MSt.goto, MSt.setObj, MSt.touch, sub, q_sub _ hm, hrank_all] at *; omega)
    | (cases h; simp only [MSt.left, MSt.goto, MSt.setObj, MSt.touch, sub, q_sub _ hx, hrank_all] at *; omega)
    | (rename_i hts; cases h; simp only [MSt.left, MSt.goto, MSt.setObj, MSt.touch, sub, hrank_all, hts, List.length_cons, List.length_nil] at *; omega)

/-- Every step of a call reduces the number of lost connections to deal with, or what is left to do. -/
theorem pstep_left (P : Prog σ) (N p w : Nat) (s : MSt σ) (es) (s') (I : MInv P s) (S : MSInv s) (hp : p < N) (h : pstep P p w s = some (es, s')) :
    (∀ q, N ≤ q → s'.pu q = s.pu q) ∧
    (total (fun p => (s'.pu p).asksSweep) N < total (fun p => (s.pu p).asksSweep) N ∨
     total (fun p => (s'.pu p).asksSweep) N = total (fun p => (s.pu p).asksSweep) N ∧ s'.left P N < s.left P N) := by
  have hle := le_total (f := fun x => (s.pu x).rank) hp
  have hla := le_total (f := fun x => (s.pu x).asksSweep) hp
  have sub := fun pc => total_sub (fun pc : PPC => pc.rank) s.pu hp pc
  have sua := fun pc => total_sub (fun pc : PPC => pc.asksSweep) s.pu hp pc
  have hout : ∀ pc q, N ≤ q → put s.pu p pc q = s.pu q := fun pc q hq => put_other _ _ _ (by omega)
  unfold pstep at h
  split at h
  all_goals rename_i hpc
  all_goals rw [hpc] at hle sub hla sua
  case h_4 =>
    have hm := I.nx _ (S.sw p _ (by rw [hpc]; exact List.mem_cons_self))
    have hq := le_total (f := fun r => (s.objs r).queue.length) hm
    split at h
    · cases h; refine ⟨hout _, Or.inr ?_⟩
      simp only [MSt.left, MSt.pgoto, MSt.destroy, MSt.touch, sub, sua, q_sub _ hm, prank_all, asks_all, List.length_cons] at *; omega
    · cases h; refine ⟨hout _, Or.inr ?_⟩
      simp only [MSt.left, MSt.pgoto, MSt.touch, sub, sua, prank_all, asks_all, List.length_cons] at *; omega
  case h_3 =>
    split at h
    · cases h; refine ⟨hout _, Or.inl ?_⟩
      simp only [MSt.pgoto, sua, asks_all] at *; omega
    · cases h
  case h_7 =>
    split at h
    · split at h
      · split at h
        · cases h; refine ⟨hout _, Or.inr ?_⟩
          simp only [MSt.left, MSt.pgoto, sub, sua, prank_all, asks_all] at *; omega
        · split at h
          · cases h; refine ⟨hout _, Or.inr ?_⟩
            have e : total (fun r => (put s.objs s.next (⟨P.make ‹RequestId› ‹Message›.data, none, none, [], true⟩ : Obj σ) r).queue.length) s.next =
                total (fun r => (s.objs r).queue.length) s.next :=
              total_congr (fun i hi => by rw [put_other _ _ _ (by omega)])
            simp only [MSt.left, MSt.pgoto, sub, sua, prank_all, asks_all, total, put_same, e, List.length_nil] at *; omega
          · cases h; refine ⟨hout _, Or.inr ?_⟩
            simp only [MSt.left, MSt.pgoto, sub, sua, prank_all, asks_all] at *; omega
      · cases h; refine ⟨hout _, Or.inr ?_⟩
        simp only [MSt.left, MSt.pgoto, sub, sua, prank_all, asks_all] at *; omega
    · rename_i hl
      have hm := I.nx _ (mlookup_mem hl)
      have hq := le_total (f := fun r => (s.objs r).queue.length) hm
      split at h
      · cases h; refine ⟨hout _, Or.inr ?_⟩
        simp only [MSt.left, MSt.pgoto, MSt.setObj, MSt.touch, sub, sua, q_sub _ hm, prank_all, asks_all, List.length_append, List.length_cons, List.length_nil] at *; omega
      · cases h
  case h_8 =>
    split at h
    · split at h
      · rename_i hw
        have hwn : w < P.threads := by
          apply Nat.lt_of_not_le
          intro hh
          rw [I.off w hh] at hw; cases hw
        have hlt := le_total (f := fun x => (s.th x).rank P.threads) hwn
        have sut := fun pc => total_sub (fun pc : HPC => pc.rank P.threads) s.th hwn pc
        rw [hw] at hlt sut
        cases h; refine ⟨hout _, Or.inr ?_⟩
        simp only [MSt.left, MSt.pgoto, MSt.goto, sub, sua, sut, hrank_all, prank_all, asks_all, List.length_append, List.length_cons, List.length_nil] at *; omega
      · split at h
        · cases h; refine ⟨hout _, Or.inr ?_⟩
          simp only [MSt.left, MSt.pgoto, sub, sua, prank_all, asks_all, List.length_append, List.length_cons, List.length_nil] at *; omega
        · cases h
    · cases h
  all_goals repeat' split at h
  all_goals first
    | (cases h; done)
    | (cases h; refine ⟨hout _, Or.inr ?_⟩
       simp only [MSt.left, MSt.pgoto, sub, sua, prank_all, asks_all, List.length_nil] at *; omega)

theorem run_idle {P : Prog σ} {x tr s'} (h : MRun P (mInit x) tr s') : ∃ N, ∀ q, N ≤ q → s'.pu q = .idle := by
  induction h with
  | refl => exact ⟨0, fun _ _ => rfl⟩
  | step hr h ih =>
    obtain ⟨N, hN⟩ := ih
    cases h with
    | handler t h => exact ⟨N, by rw [(hstep_table P t _ _ _ h).1]; exact hN⟩
    | pusher p w h =>
      obtain ⟨pc, h1, _⟩ := pstep_sweep P p w _ _ _ h
      refine ⟨max N (p + 1), fun q hq => ?_⟩
      rw [h1, put_other _ _ _ (by omega)]
      exact hN q (by omega)
    | env e h =>
      rcases (estep_table P e _ _ _ h).2 with h2 | ⟨p, _, pc, h2, _⟩
      · exact ⟨N, by rw [h2]; exact hN⟩
      · refine ⟨max N (p + 1), fun q hq => ?_⟩
        rw [h2, put_other _ _ _ (by omega)]
        exact hN q (by omega)

theorem inner_acc (P : Prog σ) (N : Nat) : ∀ (a b : Nat) (s : MSt σ), total (fun p => (s.pu p).asksSweep) N = a → s.left P N = b →
    MInv P s → MSInv s → (∀ q, N ≤ q → s.pu q = .idle) → Acc (fun s' s => Inner P s s') s := by
  intro a
  induction a using Nat.strongRecOn with
  | _ a iha =>
    intro b
    induction b using Nat.strongRecOn with
    | _ b ihb =>
      intro s ha hb I S hN
      refine Acc.intro _ (fun s' hs => ?_)
      rcases hs with ⟨t, es, h⟩ | ⟨p, w, es, h⟩
      · obtain ⟨h1, h2⟩ := hstep_left P N t s es s' I h
        refine ihb _ (by omega) s' (by rw [h2]; exact ha) rfl (hstep_inv P t s es s' I h) (hstep_sinv P t s es s' I S h) (by rw [h2]; exact hN)
      · have hp : p < N := by
          apply Nat.lt_of_not_le
          intro hh
          unfold pstep at h
          rw [hN p hh] at h; cases h
        obtain ⟨h1, h2⟩ := pstep_left P N p w s es s' I S hp h
        have hN' : ∀ q, N ≤ q → s'.pu q = .idle := fun q hq => by rw [h1 q hq]; exact hN q hq
        have I' := pstep_inv P p w s es s' I S h
        have S' := pstep_sinv P p w s es s' I S h
        rcases h2 with h2 | ⟨h2, h3⟩
        · exact iha _ (by omega) _ s' rfl rfl I' S' hN'
        · exact ihb _ (by omega) s' (by omega) rfl I' S' hN'

theorem run_acc {P : Prog σ} {x tr s} (h : MRun P (mInit x) tr s) : Acc (fun s' s => Inner P s s') s := by
  obtain ⟨N, hN⟩ := run_idle h
  exact inner_acc P N _ _ s rfl rfl (run_kq h).1 (run_kq h).2.1 hN

end Fcgi.Model
