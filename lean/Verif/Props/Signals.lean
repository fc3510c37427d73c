import Verif.Lemmas.Signals
import Verif.Props.Manager
/-! # C106: stopping by signals -/
namespace Fcgi.Props
open Fcgi.Model Fcgi.Spec
variable {σ : Type} {P : Prog σ} {x : σ} {ok : MSt σ → Who → Prop}

/-- What a signal is for: SIGUSR1 stops, SIGTERM terminates, and nobody is left asleep. -/
def Sig.took (g : Sig) (m : MSt σ) : Prop :=
  (match g with | .usr1 => m.stop = true | .term => m.terminate = true) ∧ ∀ t, m.th t ≠ .waiting

/-- The handler of a signal cannot return: the thread in it holds m_tasksMutex itself, or m_tasksMutex is held by a thread that waits for m_requestsMutex,
which the thread in the signal handler holds. -/
def Stuck (s : SigSt σ) : Prop :=
  ∃ t, s.m.tlock = some t ∧ (s.caught (.handler t) ≠ [] ∨
    (s.m.th t = .top ∨ s.m.th t = .check) ∧ ∃ y, s.m.writer = some y ∧ s.caught y ≠ [])

/-- Only the thread that holds m_tasksMutex gives it up. -/
theorem tlock_kept (I : MInv P s) (h : hstep P u s = some (es, s')) (hl : s.tlock = some t) (hu : u ≠ t) :
    s'.tlock = some t ∧ ∀ v, .finished v ∉ es := by
  have hne : (s.th u).holdsT = false := by
    cases hh : (s.th u).holdsT with
    | false => rfl
    | true => have := (I.tl u).2 hh; rw [hl] at this; cases this; exact absurd rfl hu
  unfold hstep at h
  cases hp : s.th u <;> rw [hp] at h hne <;> dsimp only at h
  all_goals first | (cases hne; done) | skip
  all_goals repeat' split at h
  all_goals first
    | (cases h; done)
    | (rw [hl] at *; rename_i hx; cases hx; done)
    | (simp only [Option.some.injEq, Prod.mk.injEq] at h
       obtain ⟨rfl, rfl⟩ := h
       exact ⟨hl, fun v hv => by simp at hv⟩)

/-- And only the one that holds m_requestsMutex gives that up. -/
theorem writer_kept (I : MInv P s) (h : hstep P u s = some (es, s')) (hl : s.writer = some y) (hu : y ≠ .handler u) : s'.writer = some y := by
  have hne : (s.th u).erasing = false := by
    cases hh : (s.th u).erasing with
    | false => rfl
    | true => have := (I.wh u).2 hh; rw [hl] at this; cases this; exact absurd rfl hu
  unfold hstep at h
  cases hp : s.th u <;> rw [hp] at h hne <;> dsimp only at h
  all_goals first | (cases hne; done) | skip
  all_goals repeat' split at h
  all_goals first
    | (cases h; done)
    | (rw [hl] at *; rename_i hx; cases hx; done)
    | (rw [hl] at *; rename_i hx; cases hx.1; done)
    | (simp only [Option.some.injEq, Prod.mk.injEq] at h
       obtain ⟨rfl, rfl⟩ := h
       exact hl)
theorem writer_kept_push (I : MInv P s) (h : pstep P p w s = some (es, s')) (hl : s.writer = some y) (hu : y ≠ .pusher p) : s'.writer = some y := by
  have hne : (s.pu p).holdsW = false := by
    cases hh : (s.pu p).holdsW with
    | false => rfl
    | true => have := (I.wp p).2 hh; rw [hl] at this; cases this; exact absurd rfl hu
  unfold pstep at h
  cases hp : s.pu p <;> rw [hp] at h hne <;> dsimp only at h
  all_goals first | (cases hne; done) | skip
  all_goals repeat' split at h
  all_goals first
    | (cases h; done)
    | (rw [hl] at *; rename_i hx; cases hx; done)
    | (rw [hl] at *; rename_i hx; cases hx.1; done)
    | (simp only [Option.some.injEq, Prod.mk.injEq] at h
       obtain ⟨rfl, rfl⟩ := h
       exact hl)
theorem push_quiet (h : pstep P p w s = some (es, s')) : ∀ v, .finished v ∉ es := by
  intro v
  unfold pstep at h
  cases hp : s.pu p <;> rw [hp] at h <;> dsimp only at h
  all_goals repeat' split at h
  all_goals first
    | (cases h; done)
    | (simp only [Option.some.injEq, Prod.mk.injEq] at h
       obtain ⟨rfl, rfl⟩ := h
       intro hv; simp at hv)
theorem estep_kept (h : estep P e s = some (es, s')) (hl : s.tlock = some t) (ht : (s.th t).holdsT = true) :
    s'.tlock = some t ∧ s'.writer = s.writer ∧ s'.stop = s.stop ∧ s'.terminate = s.terminate ∧ (∀ v, .finished v ∉ es) ∧ (s'.th t = s.th t ∨ e = .join) ∧
    e ≠ .stop ∧ e ≠ .terminate := by
  cases e <;> unfold estep at h <;> dsimp only at h
  all_goals repeat' split at h
  all_goals first
    | (cases h; done)
    | (rw [hl] at *; rename_i hx; cases hx; done)
    | (simp only [Option.some.injEq, Prod.mk.injEq] at h
       obtain ⟨rfl, rfl⟩ := h
       refine ⟨hl, rfl, rfl, rfl, fun v hv => by simp at hv, ?_, by simp, by simp⟩
       first
         | exact Or.inr rfl
         | exact Or.inl rfl
         | (left
            simp only [MSt.goto, put]
            split
            · rename_i hw hx; rw [← hx] at hw; rw [hw] at ht; cases ht
            · rfl))

theorem stuck_step {s s' : SigSt σ} {es} (I : MInv P s.m) (S : Stuck s) (h : SigStep P ok s es s') :
    Stuck s' ∧ s'.m.stop = s.m.stop ∧ s'.m.terminate = s.m.terminate ∧ (∀ u, .finished u ∉ es) ∧ ∀ y, s.caught y <:+ s'.caught y := by
  obtain ⟨t, hl, S⟩ := S
  have ht := (I.tl t).1 hl
  cases h with
  | handler u hc h =>
    obtain ⟨h1, h2, h3, h4⟩ := hstep_others P u _ _ _ h
    have hu : u ≠ t := by
      rintro rfl
      rcases S with S | ⟨S, y, hy, hcy⟩
      · exact S hc
      · unfold hstep at h
        rcases S with S | S <;> rw [S] at h <;> simp [hy] at h
    obtain ⟨k1, k2⟩ := tlock_kept I h hl hu
    refine ⟨⟨t, k1, ?_⟩, h3, h4, k2, fun y => List.suffix_refl _⟩
    rcases S with S | ⟨S, y, hy, hcy⟩
    · exact Or.inl S
    · refine Or.inr ⟨?_, y, writer_kept I h hy (by rintro rfl; exact hcy hc), hcy⟩
      rcases h1 t (Ne.symm hu) with e | ⟨e, _⟩
      · dsimp only; rw [e]; exact S
      · rw [e] at ht; cases ht
  | pusher p w hc h =>
    obtain ⟨h1, h2, h3, h4, h5⟩ := pstep_others P p w _ _ _ h
    refine ⟨⟨t, by dsimp only; rw [h5, hl], ?_⟩, h3, h4, push_quiet h, fun y => List.suffix_refl _⟩
    rcases S with S | ⟨S, y, hy, hcy⟩
    · exact Or.inl S
    · refine Or.inr ⟨?_, y, writer_kept_push I h hy (by rintro rfl; exact hcy hc), hcy⟩
      rcases h1 t with e | ⟨e, _⟩
      · dsimp only; rw [e]; exact S
      · rw [e] at ht; cases ht
  | env e hc h =>
    obtain ⟨k1, k2, k3, k4, k5, k6, k7, k8⟩ := estep_kept h hl ht
    refine ⟨⟨t, k1, ?_⟩, k3, k4, k5, fun y => List.suffix_refl _⟩
    rcases S with S | ⟨S, y, hy, hcy⟩
    · exact Or.inl S
    · refine Or.inr ⟨?_, y, by dsimp only; rw [k2, hy], hcy⟩
      rcases k6 with k6 | rfl
      · dsimp only; rw [k6]; exact S
      · exfalso
        unfold estep at h
        dsimp only at h
        split at h
        · rename_i hj
          by_cases hlt : t < P.threads
          · rcases hj t (List.mem_range.2 hlt) with e | e <;> rw [e] at ht <;> cases ht
          · rw [I.off t (by omega)] at ht; cases ht
        · cases h
  | deliver y g hx hg ho =>
    have hs : ∀ z, s.caught z <:+ s.set y (g :: s.caught y) z := by
      intro z
      simp only [SigSt.set]
      split
      · rename_i e; rw [e]; exact List.suffix_cons _ _
      · exact List.suffix_refl _
    have hne : ∀ z, s.caught z ≠ [] → s.set y (g :: s.caught y) z ≠ [] := by
      intro z hz hh
      have := hs z; rw [hh] at this
      exact hz (List.suffix_nil.1 this)
    refine ⟨⟨t, hl, ?_⟩, rfl, rfl, fun u hu => (List.not_mem_nil hu).elim, hs⟩
    rcases S with S | ⟨S, z, hy, hcy⟩
    · exact Or.inl (hne _ S)
    · exact Or.inr ⟨S, z, hy, hne _ hcy⟩
  | run y g l hc h =>
    obtain ⟨_, _, _, _, _, _, k7, k8⟩ := estep_kept h hl ht
    cases g
    · exact absurd rfl k7
    · exact absurd rfl k8

theorem stuck_run {s s' : SigSt σ} {tr tr'} (h : SigRun P ok (sigInit x) tr s) (S : Stuck s) (h' : SigRun P ok s tr' s') :
    (∃ tr'', SigRun P ok (sigInit x) tr'' s') ∧ Stuck s' ∧ s'.m.stop = s.m.stop ∧ s'.m.terminate = s.m.terminate ∧ (∀ u, .finished u ∉ tr') ∧ ∀ y, s.caught y <:+ s'.caught y := by
  induction h' with
  | refl => exact ⟨⟨tr, h⟩, S, rfl, rfl, by simp, fun y => List.suffix_refl _⟩
  | step _ hst ih =>
    obtain ⟨⟨tr2, i0⟩, i1, i2, i3, i4, i5⟩ := ih
    obtain ⟨j1, j2, j3, j4, j5⟩ := stuck_step (run_kq (sig_mrun i0)).1 i1 hst
    refine ⟨⟨_, .step i0 hst⟩, j1, j2.trans i2, j3.trans i3, ?_, fun y => (i5 y).trans (j5 y)⟩
    intro u hu
    rcases List.mem_append.1 hu with hu | hu
    · exact i4 u hu
    · exact j4 u hu

/-- False of the code: if the kernel delivers the signal to a thread that holds m_tasksMutex (or holds m_requestsMutex while a thread that holds m_tasksMutex waits
for it), then nothing that happens afterwards, in any order, makes the call in the signal handler return: the manager is neither stopped nor
terminated, no thread ever ends, and no later signal and no call of `stop()` or `terminate()` helps. -/
theorem C106_violated {s s' : SigSt σ} {tr tr'} (h : SigRun P ok (sigInit x) tr s) (S : Stuck s) (h' : SigRun P ok s tr' s') :
    s'.m.stop = s.m.stop ∧ s'.m.terminate = s.m.terminate ∧ (∀ u, .finished u ∉ tr') ∧ ∀ y, s.caught y <:+ s'.caught y :=
  (stuck_run h S h').2.2

/-- A run without signals. -/
theorem run_without {tr} {m : MSt σ} (h : MRun P (mInit x) tr m) : SigRun P ok (sigInit x) tr ⟨m, fun _ => []⟩ := by
  induction h with
  | refl => exact .refl _
  | step _ h ih =>
    refine .step ih ?_
    cases h with
    | handler t h => exact .handler (s := ⟨_, fun _ => []⟩) t rfl h
    | pusher p w h => exact .pusher (s := ⟨_, fun _ => []⟩) p w rfl h
    | env e h => exact .env (s := ⟨_, fun _ => []⟩) e (by cases e <;> simp [Outer.notBy]) h

/-- That happens: a handler thread is interrupted by SIGTERM just after it has locked m_tasksMutex at the beginning (manager.cpp 259). -/
theorem C106_own_violated : ∃ tr s, SigRun (mgrDemo 1) (fun _ _ => True) (sigInit 0) tr s ∧ s.caught (.handler 0) = [.term] ∧
    ∀ tr' s', SigRun (mgrDemo 1) (fun _ _ => True) s tr' s' → s'.m.terminate = false ∧ s'.m.stop = false ∧ ∀ u, .finished u ∉ tr' := by
  obtain ⟨tr, m, h1, h2⟩ := mgr_run (n := 1) (cs := [.e .start, .h 0])
    (f := fun y => decide (y.2.tlock = some 0 ∧ y.2.th 0 = .top ∧ y.2.stop = false ∧ y.2.terminate = false)) (by rfl)
  obtain ⟨a1, a2, a3, a4⟩ := of_decide_eq_true h2
  have hr := SigRun.step (run_without (ok := fun _ _ => True) h1) (.deliver (.handler 0) .term (by simp only [MSt.exists]; rw [show m.th 0 = .top from a2]; rfl) (by simp) trivial)
  refine ⟨_, _, hr, by simp [SigSt.set], fun tr' s' h' => ?_⟩
  obtain ⟨k1, k2, k3, _⟩ := C106_violated hr ⟨0, a1, Or.inl (by simp [SigSt.set])⟩ h'
  exact ⟨k2.trans a4, k1.trans a3, k3⟩

/-- And so does this: the transceiver's thread is interrupted by SIGUSR1 in `push`, holding m_requestsMutex (manager.cpp 376), while a handler thread has just locked
m_tasksMutex and waits for m_requestsMutex (manager.cpp 260). -/
theorem C106_cross_violated : ∃ tr s, SigRun (mgrDemo 1) (fun _ _ => True) (sigInit 0) tr s ∧ s.caught (.pusher 0) = [.usr1] ∧ s.caught (.handler 0) = [] ∧
    ∀ tr' s', SigRun (mgrDemo 1) (fun _ _ => True) s tr' s' → s'.m.terminate = false ∧ s'.m.stop = false ∧ ∀ u, .finished u ∉ tr' := by
  obtain ⟨tr, m, h1, h2⟩ := mgr_run (n := 1) (cs := [.e .start] ++ mgrPush mgrKey mgrBegin 1 0 ++ [.h 0])
    (f := fun y => decide (y.2.tlock = some 0 ∧ y.2.th 0 = .top ∧ y.2.writer = some (.pusher 0) ∧ y.2.stop = false ∧ y.2.terminate = false)) (by rfl)
  obtain ⟨a1, a2, a3, a4, a5⟩ := of_decide_eq_true h2
  have hr := SigRun.step (run_without (ok := fun _ _ => True) h1) (.deliver (.pusher 0) .usr1 rfl (by simp) trivial)
  refine ⟨_, _, hr, by simp [SigSt.set], by simp [SigSt.set], fun tr' s' h' => ?_⟩
  obtain ⟨k1, k2, k3, _⟩ := C106_violated hr ⟨0, a1, Or.inr ⟨Or.inl a2, _, a3, by simp [SigSt.set]⟩⟩ h'
  exact ⟨k2.trans a5, k1.trans a4, k3⟩

/-- A step of a thread that is not in a signal handler. -/
def SigInner (P : Prog σ) (s s' : SigSt σ) : Prop :=
  s'.caught = s.caught ∧ ((∃ t es, s.caught (.handler t) = [] ∧ hstep P t s.m = some (es, s'.m)) ∨
    ∃ p w es, s.caught (.pusher p) = [] ∧ pstep P p w s.m = some (es, s'.m))

/-- True if signals are delivered only to threads that hold none of m_tasksMutex, m_requestsMutex and m_messagesMutex of requests (threads in the user's code,
waiting for tasks, or outside the manager): the others cannot keep the call in the handler from returning: they come to rest
after finitely many steps if nothing new happens outside, and as soon as they rest the call can be made; it then has the
effect the signal is for.  (Missing: signals to other threads, for which it is false.) -/
theorem C106_partial {s : SigSt σ} {tr} (h : SigRun P harmless (sigInit x) tr s) {y g l} (hc : s.caught y = g :: l) :
    (¬ ∃ f : Nat → SigSt σ, f 0 = s ∧ ∀ i, SigInner P (f i) (f (i + 1))) ∧
    (SigStill P s → ∃ es s', SigStep P harmless s es s' ∧ s'.caught y = l ∧ Sig.took g s'.m) ∧
    ∀ es s', SigStep P harmless s es s' → s'.caught y = l → Sig.took g s'.m := by
  have hm := sig_mrun h
  have eff : ∀ es m', estep P g.call s.m = some (es, m') → Sig.took g m' := by
    intro es m' he
    cases g <;> unfold estep at he <;> dsimp only [Sig.call] at he <;> split at he
    · simp only [Option.some.injEq, Prod.mk.injEq] at he
      obtain ⟨_, rfl⟩ := he
      refine ⟨rfl, fun t => ?_⟩
      simp only [MSt.notifyAll]; split
      · simp
      · assumption
    · cases he
    · simp only [Option.some.injEq, Prod.mk.injEq] at he
      obtain ⟨_, rfl⟩ := he
      refine ⟨rfl, fun t => ?_⟩
      simp only [MSt.notifyAll]; split
      · simp
      · assumption
    · cases he
  refine ⟨?_, fun hs => ?_, fun es s' hst hl => ?_⟩
  · rintro ⟨f, h0, hf⟩
    refine C66_settles hm ⟨fun i => (f i).m, congrArg SigSt.m h0, fun i => ?_⟩
    rcases (hf i).2 with ⟨t, es, _, hh⟩ | ⟨p, w, es, _, hh⟩
    · exact Or.inl ⟨t, es, hh⟩
    · exact Or.inr ⟨p, w, es, hh⟩
  · have hl := sig_free (run_kq hm).1 (sig_run h) hs
    cases he : estep P g.call s.m with
    | none => cases g <;> simp [estep, Sig.call, hl] at he
    | some r => exact ⟨r.1, _, .run y g l hc he, by simp [SigSt.set], eff r.1 r.2 he⟩
  · have no : s.caught y ≠ l := by rw [hc]; intro hh; simpa using congrArg List.length hh
    cases hst with
    | handler => exact absurd hl no
    | pusher => exact absurd hl no
    | env => exact absurd hl no
    | deliver z g' _ _ _ =>
      simp only [SigSt.set] at hl
      split at hl
      · rename_i e; subst e
        rw [hc] at hl
        have := congrArg List.length hl
        simp only [List.length_cons] at this
        omega
      · exact absurd hl no
    | run z g' l' hc' he =>
      simp only [SigSt.set] at hl
      split at hl
      · rename_i e; subst e
        rw [hc] at hc'; cases hc'
        exact eff _ _ he
      · exact absurd hl no

/-- Whoever gets the signals, they do no more than calls of `stop()` and `terminate()` by threads of their own: what is said of all runs of the manager (C40–C44, C63–C66)
holds with them too. -/
theorem C106_as_calls_partial {s : SigSt σ} {tr} (h : SigRun P ok (sigInit x) tr s) : MRun P (mInit x) tr s.m := sig_mrun h

def sigDemo : List Choice :=
  [.e .start] ++ mgrStart 0 ++ mgrPush mgrKey mgrBegin 2 0 ++ mgrPush mgrKey mgrParams 3 0 ++ List.replicate 8 (.h 0)

/-- The hypotheses of `C106_partial` are met: SIGTERM while the only thread is in the user's code; when it is the signal handler's turn it takes effect. -/
example : ∃ tr s, SigRun (mgrDemo 1) harmless (sigInit 0) tr s ∧ s.caught (.handler 0) = [.term] ∧ (∃ k r m, s.m.th 0 = .work k r m) ∧
    SigStill (mgrDemo 1) s := by
  have hp : (play (mgrDemo 1) (mInit 0) sigDemo).any (fun y => decide (y.2.th 0 = .work mgrKey 0 mgrParams ∧ y.2.pu 0 = .idle)) = true := by rfl
  cases hy : play (mgrDemo 1) (mInit 0) sigDemo with
  | none => rw [hy] at hp; cases hp
  | some y =>
    obtain ⟨tr, m⟩ := y
    rw [hy] at hp
    obtain ⟨a1, a2⟩ : m.th 0 = .work mgrKey 0 mgrParams ∧ m.pu 0 = .idle := of_decide_eq_true hp
    have h1 := play_run hy
    refine ⟨_, _, SigRun.step (run_without h1) (.deliver (.handler 0) .term (by simp only [MSt.exists]; rw [a1]; rfl) (by simp) ?_), by simp [SigSt.set],
      ⟨_, _, _, a1⟩, fun t ht => ?_, fun p w _ => ?_⟩
    · rw [harmless_h, a1]; exact ⟨rfl, rfl, rfl, rfl⟩
    · by_cases h0 : t = 0
      · subst h0; simp [SigSt.set] at ht
      · unfold hstep
        dsimp only
        rw [(run_kq h1).1.off t (by simp [mgrDemo]; omega)]
    · have : m.pu p = .idle := by
        by_cases hq : p = 0
        · subst hq; exact a2
        · rw [play_pu hy (by rfl) p hq]; rfl
      unfold pstep
      dsimp only
      rw [this]

end Fcgi.Props
