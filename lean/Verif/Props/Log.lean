import Verif.Spec.Log
/-! # C112, C113: the log -/
namespace Fcgi.Props
open Fcgi.Model Fcgi.Spec

/-! ## Facts about every run -/

/-- What a thread has at hand and not yet logged. -/
def logPend : LogPc → List LogCall
  | .idle => []
  | .wants c => [c]
  | .writes _ c _ => [c]
  | .exits _ _ => []

/-- The mutex is held exactly by the thread that is between lock and unlock, which is at most one. -/
structure LogInv (s : LogSys) : Prop where
  hold : ∀ t, (s.holder = some t ↔ (∃ st c ps, (s.th t).pc = .writes st c ps) ∨ ∃ st c, (s.th t).pc = .exits st c)
  ends : ∀ t st c, (s.th t).pc = .exits st c → c.level = .fail ∧ ∃ pre, s.entries = pre ++ [(t, st, c)]
  last : ∀ pre e post, s.entries = pre ++ e :: post → e.2.2.level = .fail → post = [] ∧ ∃ t st c, (s.th t).pc = .exits st c

theorem LogInv.init (hush : Bool) (progs : Nat → List LogCall) : LogInv (.init hush progs) := by
  constructor
  · intro t; constructor
    · intro h; cases h
    · rintro (⟨_, _, _, h⟩ | ⟨_, _, h⟩) <;> cases h
  · intro t st c h; cases h
  · intro pre e post h; cases pre <;> cases h

theorem log_snoc {α : Type} (l pre post : List α) (a e : α) (h : l ++ [a] = pre ++ e :: post) :
    (post = [] ∧ e = a ∧ pre = l) ∨ ∃ p', post = p' ++ [a] ∧ l = pre ++ e :: p' := by
  rcases List.eq_nil_or_concat post with rfl | ⟨p', x, rfl⟩
  · left
    have := List.append_inj' h rfl
    simp at this; exact ⟨rfl, this.2.symm, this.1.symm⟩
  · right
    have h2 : l ++ [a] = (pre ++ e :: p') ++ [x] := by rw [h]; simp
    have := List.append_inj' h2 rfl
    simp at this; exact ⟨p', by rw [List.concat_eq_append, this.2], this.1⟩

theorem LogInv.step {cfg : LogCfg} {s s' : LogSys} (i : LogInv s) (a : LogAct) (h : logStep cfg s a = some s') : LogInv s' := by
  cases a with
  | suppress b => cases h; exact ⟨i.hold, i.ends, i.last⟩
  | step t stamp =>
    -- a thread with the mutex excludes any other
    have one : ∀ u, s.holder = some t → u ≠ t → (¬ ∃ st c ps, (s.th u).pc = .writes st c ps) ∧ ¬ ∃ st c, (s.th u).pc = .exits st c := by
      intro u hh hu
      constructor <;> intro hx
      · have := (i.hold u).2 (.inl hx); rw [hh] at this; cases this; exact hu rfl
      · have := (i.hold u).2 (.inr hx); rw [hh] at this; cases this; exact hu rfl
    unfold logStep at h
    dsimp only at h
    cases hp : (s.th t).pc with
    | idle =>
      rw [hp] at h; dsimp only at h
      cases ht : (s.th t).todo with
      | nil => rw [ht] at h; cases h
      | cons c cs =>
        rw [ht] at h; dsimp only at h
        split at h <;> cases h
        all_goals
          refine ⟨fun u => ?_, fun u st c hx => ?_, fun pre e post he hf => ?_⟩
          · by_cases hu : u = t
            · subst hu; simp only [upd, if_pos]
              rw [i.hold u, hp] <;> simp
            · simp only [upd, if_neg hu]; exact i.hold u
          · by_cases hu : u = t
            · subst hu; simp [upd] at hx
            · simp only [upd, if_neg hu] at hx; exact i.ends u st c hx
          · obtain ⟨h1, u, st, c', hx⟩ := i.last pre e post he hf
            refine ⟨h1, u, st, c', ?_⟩
            by_cases hu : u = t
            · subst hu; rw [hp] at hx; cases hx
            · simp only [upd, if_neg hu]; exact hx
    | wants c =>
      rw [hp] at h; dsimp only at h
      cases hh : s.holder with
      | some w => rw [hh] at h; cases h
      | none =>
        rw [hh] at h; cases h
        refine ⟨fun u => ?_, fun u st c hx => ?_, fun pre e post he hf => ?_⟩
        · by_cases hu : u = t
          · subst hu; simp [upd]
          · simp only [upd, if_neg hu]
            rw [← i.hold u, hh]
            constructor
            · intro h; cases h; exact absurd rfl hu
            · intro h; cases h
        · by_cases hu : u = t
          · subst hu; simp [upd] at hx
          · simp only [upd, if_neg hu] at hx; exact i.ends u st c hx
        · obtain ⟨h1, u, st, c', hx⟩ := i.last pre e post he hf
          refine ⟨h1, u, st, c', ?_⟩
          by_cases hu : u = t
          · subst hu; rw [hp] at hx; cases hx
          · simp only [upd, if_neg hu]; exact hx
    | exits st c => rw [hp] at h; cases h
    | writes st c ps =>
      have hh : s.holder = some t := (i.hold t).2 (.inl ⟨st, c, ps, hp⟩)
      rw [hp] at h; try dsimp only at h
      cases ps with
      | cons p ps =>
        cases h
        refine ⟨fun u => ?_, fun u st c hx => ?_, fun pre e post he hf => ?_⟩
        · by_cases hu : u = t
          · subst hu; simp [upd, hh]
          · simp only [upd, if_neg hu]; exact i.hold u
        · by_cases hu : u = t
          · subst hu; simp [upd] at hx
          · simp only [upd, if_neg hu] at hx; exact i.ends u st c hx
        · obtain ⟨h1, u, st, c', hx⟩ := i.last pre e post he hf
          refine ⟨h1, u, st, c', ?_⟩
          by_cases hu : u = t
          · subst hu; rw [hp] at hx; cases hx
          · simp only [upd, if_neg hu]; exact hx
      | nil =>
        dsimp only at h
        -- nothing logged so far is a failure
        have nof : ∀ pre e post, s.entries = pre ++ e :: post → ¬ e.2.2.level = .fail := by
          intro pre e post he hf
          obtain ⟨_, u, st', c', hx⟩ := i.last pre e post he hf
          by_cases hu : u = t
          · subst hu; rw [hp] at hx; cases hx
          · exact (one u hh hu).2 ⟨st', c', hx⟩
        split at h <;> rename_i hf <;> cases h
        · refine ⟨fun u => ?_, fun u st' c' hx => ?_, fun pre e post he hf' => ?_⟩
          · by_cases hu : u = t
            · subst hu; simp [upd, hh]
            · simp only [upd, if_neg hu]; exact i.hold u
          · by_cases hu : u = t
            · subst hu; simp [upd] at hx; obtain ⟨rfl, rfl⟩ := hx; exact ⟨hf, s.entries, rfl⟩
            · simp only [upd, if_neg hu] at hx; exact absurd ⟨st', c', hx⟩ (one u hh hu).2
          · rcases log_snoc _ _ _ _ _ he with ⟨h1, h2, _⟩ | ⟨p', h1, h2⟩
            · exact ⟨h1, t, st, c, by simp [upd]⟩
            · exact absurd hf' (nof _ _ _ h2)
        · refine ⟨fun u => ?_, fun u st' c' hx => ?_, fun pre e post he hf' => ?_⟩
          · by_cases hu : u = t
            · subst hu; simp [upd]
            · simp only [upd, if_neg hu]
              constructor
              · intro h; cases h
              · rintro (hx | hx)
                · exact absurd hx (one u hh hu).1
                · exact absurd hx (one u hh hu).2
          · by_cases hu : u = t
            · subst hu; simp [upd] at hx
            · simp only [upd, if_neg hu] at hx; exact absurd ⟨st', c', hx⟩ (one u hh hu).2
          · rcases log_snoc _ _ _ _ _ he with ⟨h1, h2, _⟩ | ⟨p', h1, h2⟩
            · subst h2; exact absurd hf' hf
            · exact absurd hf' (nof _ _ _ h2)

/-- Runs keep what steps keep. -/
theorem log_induct {cfg : LogCfg} {P : LogSys → Prop} (hs : ∀ s a s', P s → logStep cfg s a = some s' → P s') :
    ∀ (as : List LogAct) (s s' : LogSys), P s → logRun cfg s as = some s' → P s' := by
  intro as
  induction as with
  | nil => intro s s' h hr; cases hr; exact h
  | cons a as ih =>
    intro s s' h hr
    unfold logRun at hr
    cases h1 : logStep cfg s a with
    | none => rw [h1] at hr; cases hr
    | some s1 => rw [h1] at hr; exact ih s1 s' (hs s a s1 h h1) hr

theorem run_loginv {cfg : LogCfg} {hush : Bool} {progs : Nat → List LogCall} {as : List LogAct} {s : LogSys}
    (h : logRun cfg (.init hush progs) as = some s) : LogInv s :=
  log_induct (P := LogInv) (fun _ a _ i h => i.step a h) as _ _ (.init hush progs) h

/-! ## The text of the log -/

/-- What the holder of the mutex has inserted already. -/
def logCur (cfg : LogCfg) (s : LogSys) (cur : List Nat) : Prop :=
  (∀ t st c ps, (s.th t).pc = .writes st c ps → ∃ pre, pre ++ ps = cfg.pieces st c ∧ cur = pre.flatten) ∧
  ((∀ t st c ps, (s.th t).pc ≠ .writes st c ps) → cur = [])

/-- Every text that occurs can be written. -/
structure LWrit (cfg : LogCfg) (s : LogSys) : Prop where
  todo : ∀ t, ∀ c ∈ (s.th t).todo, ∀ d ∈ c.data, Writable cfg.enc d
  pc : ∀ t c, (s.th t).pc = .wants c → ∀ d ∈ c.data, Writable cfg.enc d
  rest : ∀ t st c ps, (s.th t).pc = .writes st c ps → ∀ d ∈ ps, Writable cfg.enc d

/-- The fixed texts of a log can be written: the names of host and program, the space, the end of line, the names of levels. -/
def PlainLog (cfg : LogCfg) : Prop :=
  Writable cfg.enc cfg.host ∧ Writable cfg.enc cfg.prog ∧ Writable cfg.enc [32, 10] ∧ ∀ l : LogLevel, Writable cfg.enc (levelMark l)

theorem put_writable {enc : Nat → Bool} {o : WOut} {s : List Nat} (hb : o.bad = false) (hs : Writable enc s) :
    o.put enc s = { text := o.text ++ s, bad := false } := by
  have h1 : s.takeWhile enc = s := by
    clear hb
    induction s with
    | nil => rfl
    | cons c s ih => rw [List.takeWhile_cons, if_pos (hs c (.head _)), ih fun x hx => hs x (.tail _ hx)]
  have h2 : s.all enc = true := by rw [List.all_eq_true]; exact hs
  unfold WOut.put; rw [hb, h1, h2]; rfl

theorem LWrit.step {cfg : LogCfg} (hc : PlainLog cfg) {s s' : LogSys} (w : LWrit cfg s) (a : LogAct)
    (ha : ∀ t st, a = .step t st → Writable cfg.enc st) (h : logStep cfg s a = some s') : LWrit cfg s' := by
  cases a with
  | suppress b => cases h; exact ⟨w.todo, w.pc, w.rest⟩
  | step t stamp =>
    have other : ∀ (x : LogThread) (out : WOut) (ho : Option Nat) (en : List (Nat × List Nat × LogCall)),
        (∀ c ∈ x.todo, ∀ d ∈ c.data, Writable cfg.enc d) → (∀ c, x.pc = .wants c → ∀ d ∈ c.data, Writable cfg.enc d) →
        (∀ st c ps, x.pc = .writes st c ps → ∀ d ∈ ps, Writable cfg.enc d) →
        LWrit cfg { s with out := out, holder := ho, th := upd s.th t x, entries := en } := by
      intro x out ho en h1 h2 h3
      refine ⟨fun u => ?_, fun u => ?_, fun u => ?_⟩
      all_goals
        by_cases hu : u = t
        · subst hu; simp only [upd, if_pos]; assumption
        · simp only [upd, if_neg hu]
          first | exact w.todo u | exact w.pc u | exact w.rest u
    unfold logStep at h
    dsimp only at h
    cases hp : (s.th t).pc with
    | idle =>
      rw [hp] at h; dsimp only at h
      cases ht : (s.th t).todo with
      | nil => rw [ht] at h; cases h
      | cons c cs =>
        rw [ht] at h; dsimp only at h
        have hw := w.todo t; rw [ht] at hw
        split at h <;> cases h
        · exact other _ _ _ _ (fun c' hc' => hw c' (.tail _ hc')) (fun c' h' => by cases h'; exact hw c (.head _)) (fun _ _ _ h' => by cases h')
        · exact other _ _ _ _ (fun c' hc' => hw c' (.tail _ hc')) (fun c' h' => by cases h') (fun _ _ _ h' => by cases h')
    | wants c =>
      rw [hp] at h; dsimp only at h
      cases hh : s.holder with
      | some w => rw [hh] at h; cases h
      | none =>
        rw [hh] at h; cases h
        refine other _ _ _ _ (w.todo t) (fun c' h' => by cases h') (fun st c' ps h' => ?_)
        cases h'
        intro d hd
        obtain ⟨c1, c2, c3, c4⟩ := hc
        unfold LogCfg.pieces at hd
        simp only [List.cons_append, List.nil_append, List.mem_cons, List.mem_append, List.not_mem_nil, or_false] at hd
        rcases hd with rfl | rfl | rfl | rfl | rfl | rfl | hd | rfl
        · exact ha t _ rfl
        · exact c1
        · intro x hx; exact c3 x (by simp at hx; simp [hx])
        · exact c2
        · intro x hx; exact c3 x (by simp at hx; simp [hx])
        · exact c4 _
        · exact w.pc t c hp d hd
        · intro x hx; exact c3 x (by simp at hx; simp [hx])
    | exits st c => rw [hp] at h; cases h
    | writes st c ps =>
      rw [hp] at h; try dsimp only at h
      cases ps with
      | cons p ps =>
        cases h
        refine other _ _ _ _ (w.todo t) (fun c' h' => by cases h') (fun st' c' ps' h' => ?_)
        cases h'
        exact fun d hd => w.rest t st c (p :: ps) hp d (.tail _ hd)
      | nil =>
        dsimp only at h
        split at h <;> cases h
        · exact other _ _ _ _ (w.todo t) (fun c' h' => by cases h') (fun _ _ _ h' => by cases h')
        · exact other _ _ _ _ (w.todo t) (fun c' h' => by cases h') (fun _ _ _ h' => by cases h')

theorem pieces_line (cfg : LogCfg) (st : List Nat) (c : LogCall) : (cfg.pieces st c).flatten = entryLine cfg.host cfg.prog st c := by
  have : c.level.text = levelMark c.level := by cases c.level <;> rfl
  unfold LogCfg.pieces entryLine; simp [this]

/-- The log is its entries, each a line, and what the holder of the mutex has inserted. -/
def LText (cfg : LogCfg) (s : LogSys) : Prop :=
  s.out.bad = false ∧ ∃ cur, logCur cfg s cur ∧ s.out.text = (s.entries.map fun e => entryLine cfg.host cfg.prog e.2.1 e.2.2).flatten ++ cur

theorem LText.step {cfg : LogCfg} {s s' : LogSys} (i : LogInv s) (w : LWrit cfg s) (x : LText cfg s) (a : LogAct)
    (h : logStep cfg s a = some s') : LText cfg s' := by
  obtain ⟨hb, cur, ⟨k1, k2⟩, htx⟩ := x
  cases a with
  | suppress b => cases h; exact ⟨hb, cur, ⟨k1, k2⟩, htx⟩
  | step t stamp =>
    unfold logStep at h
    dsimp only at h
    -- a thread that neither was nor is writing
    have aside : ∀ (y : LogThread), (∀ st c ps, (s.th t).pc ≠ .writes st c ps) → (∀ st c ps, y.pc ≠ .writes st c ps) →
        logCur cfg { s with th := upd s.th t y } cur := by
      intro y h1 h2
      refine ⟨fun u st c ps hx => ?_, fun hn => k2 fun u st c ps hx => ?_⟩
      · by_cases hu : u = t
        · subst hu; simp only [upd, if_pos] at hx; exact absurd hx (h2 _ _ _)
        · simp only [upd, if_neg hu] at hx; exact k1 u st c ps hx
      · by_cases hu : u = t
        · subst hu; exact h1 _ _ _ hx
        · exact hn u st c ps (by simp only [upd, if_neg hu]; exact hx)
    cases hp : (s.th t).pc with
    | idle =>
      rw [hp] at h; dsimp only at h
      cases ht : (s.th t).todo with
      | nil => rw [ht] at h; cases h
      | cons c cs =>
        rw [ht] at h; dsimp only at h
        split at h <;> cases h
        · exact ⟨hb, cur, aside _ (by rw [hp]; simp) (by simp), htx⟩
        · exact ⟨hb, cur, aside _ (by rw [hp]; simp) (by simp), htx⟩
    | wants c =>
      rw [hp] at h; dsimp only at h
      cases hh : s.holder with
      | some w => rw [hh] at h; cases h
      | none =>
        rw [hh] at h; cases h
        have hno : ∀ u st c ps, (s.th u).pc ≠ .writes st c ps := by
          intro u st c ps hx
          have := (i.hold u).2 (.inl ⟨st, c, ps, hx⟩)
          rw [hh] at this; cases this
        have hc0 := k2 hno
        subst hc0
        refine ⟨hb, [], ⟨fun u st c' ps hx => ?_, fun _ => rfl⟩, htx⟩
        by_cases hu : u = t
        · subst hu; simp [upd] at hx; obtain ⟨rfl, rfl, rfl⟩ := hx; exact ⟨[], rfl, rfl⟩
        · simp only [upd, if_neg hu] at hx; exact absurd hx (hno u st c' ps)
    | exits st c => rw [hp] at h; cases h
    | writes st c ps =>
      have hh : s.holder = some t := (i.hold t).2 (.inl ⟨st, c, ps, hp⟩)
      have one : ∀ u st' c' ps', (s.th u).pc = .writes st' c' ps' → u = t := by
        intro u st' c' ps' hx
        have := (i.hold u).2 (.inl ⟨st', c', ps', hx⟩)
        rw [hh] at this; cases this; rfl
      obtain ⟨pre, hpre, hcur⟩ := k1 t st c ps hp
      rw [hp] at h; try dsimp only at h
      cases ps with
      | cons p ps =>
        cases h
        have hpw := put_writable hb (w.rest t st c _ hp p (.head _))
        refine ⟨by rw [hpw], cur ++ p, ⟨fun u st' c' ps' hx => ?_, fun hn => ?_⟩, by rw [hpw]; dsimp only; rw [htx, List.append_assoc]⟩
        · by_cases hu : u = t
          · subst hu; simp [upd] at hx; obtain ⟨rfl, rfl, rfl⟩ := hx
            exact ⟨pre ++ [p], by simp [hpre], by rw [hcur]; simp⟩
          · simp only [upd, if_neg hu] at hx; exact absurd (one u _ _ _ hx) hu
        · exact absurd (by simp [upd]) (hn t st c ps)
      | nil =>
        have hcl : cur = entryLine cfg.host cfg.prog st c := by rw [hcur, ← pieces_line, ← hpre, List.append_nil]
        dsimp only at h
        split at h <;> cases h
        all_goals
          refine ⟨hb, [], ⟨fun u st' c' ps' hx => ?_, fun _ => rfl⟩, by dsimp only; rw [htx, hcl]; simp⟩
          by_cases hu : u = t
          · subst hu; simp [upd] at hx
          · simp only [upd, if_neg hu] at hx; exact absurd (one u _ _ _ hx) hu

theorem run_text {cfg : LogCfg} (hc : PlainLog cfg) :
    ∀ (as : List LogAct) (s s' : LogSys), (∀ t st, LogAct.step t st ∈ as → Writable cfg.enc st) → LogInv s → LWrit cfg s → LText cfg s →
      logRun cfg s as = some s' → LText cfg s' := by
  intro as
  induction as with
  | nil => intro s s' _ _ _ h hr; cases hr; exact h
  | cons a as ih =>
    intro s s' ha i w x hr
    unfold logRun at hr
    cases h1 : logStep cfg s a with
    | none => rw [h1] at hr; cases hr
    | some s1 =>
      rw [h1] at hr
      exact ih s1 s' (fun t st h => ha t st (.tail _ h)) (i.step a h1)
        (w.step hc a (fun t st h => ha t st (h ▸ .head _)) h1) (LText.step i w x a h1) hr

/-! ## Which entries -/

/-- With `suppress` left alone: what a thread has logged and is about to log is what is wanted of the part of its program it has run. -/
def LWho (cfg : LogCfg) (hush : Bool) (progs : Nat → List LogCall) (s : LogSys) : Prop :=
  s.hush = hush ∧ ∀ t, ∃ done, progs t = done ++ (s.th t).todo ∧
    ofThread t s.entries ++ logPend (s.th t).pc = done.filter fun c => Wanted cfg.level hush c

theorem wanted_iff (cfg : LogCfg) (hush : Bool) (c : LogCall) :
    (cfg.compiled c.level && !(hush && c.level.hushed)) = decide (Wanted cfg.level hush c) := by
  obtain ⟨l, d⟩ := c
  unfold Wanted LogCfg.compiled needs LogLevel.hushed
  cases l <;> cases hush <;> simp <;> omega

theorem LWho.step {cfg : LogCfg} {hush : Bool} {progs : Nat → List LogCall} {s s' : LogSys} (w : LWho cfg hush progs s) (t : Nat)
    (stamp : List Nat) (h : logStep cfg s (.step t stamp) = some s') : LWho cfg hush progs s' := by
  obtain ⟨w1, w2⟩ := w
  unfold logStep at h
  dsimp only at h
  obtain ⟨done, d1, d2⟩ := w2 t
  cases hp : (s.th t).pc with
  | idle =>
    rw [hp] at h d2; dsimp only at h
    cases ht : (s.th t).todo with
    | nil => rw [ht] at h; cases h
    | cons c cs =>
      rw [ht] at h d1; dsimp only at h
      subst w1
      rw [wanted_iff] at h
      split at h <;> rename_i hw <;> cases h
      all_goals
        refine ⟨rfl, fun u => ?_⟩
        by_cases hu : u = t
        · subst hu
          refine ⟨done ++ [c], by simp [upd, d1], ?_⟩
          simp only [upd, if_pos]
          rw [List.filter_append, ← d2]
          simp only [decide_eq_true_eq] at hw
          simp [logPend, hw]
        · simp only [upd, if_neg hu]; exact w2 u
  | wants c =>
    rw [hp] at h d2; dsimp only at h
    cases hh : s.holder with
    | some w => rw [hh] at h; cases h
    | none =>
      rw [hh] at h; cases h
      refine ⟨w1, fun u => ?_⟩
      by_cases hu : u = t
      · subst hu; exact ⟨done, by simp [upd, d1], by simpa [upd, logPend] using d2⟩
      · simp only [upd, if_neg hu]; exact w2 u
  | exits st c => rw [hp] at h; cases h
  | writes st c ps =>
    rw [hp] at h d2; try dsimp only at h
    cases ps with
    | cons p ps =>
      cases h
      refine ⟨w1, fun u => ?_⟩
      by_cases hu : u = t
      · subst hu; exact ⟨done, by simp [upd, d1], by simpa [upd, logPend] using d2⟩
      · simp only [upd, if_neg hu]; exact w2 u
    | nil =>
      dsimp only at h
      split at h <;> cases h
      all_goals
        refine ⟨w1, fun u => ?_⟩
        by_cases hu : u = t
        · subst hu
          refine ⟨done, by simp [upd, d1], ?_⟩
          rw [← d2]; simp [upd, logPend, ofThread]
        · obtain ⟨dn, e1, e2⟩ := w2 u
          refine ⟨dn, by simp [upd, hu, e1], ?_⟩
          rw [← e2]; simp [upd, hu, ofThread, Ne.symm hu]

/-- Whatever happens to `suppress`: a thread logs some of its entries, in its order. -/
def LOrd (progs : Nat → List LogCall) (s : LogSys) : Prop :=
  ∀ t, (ofThread t s.entries ++ logPend (s.th t).pc ++ (s.th t).todo).Sublist (progs t)

theorem LOrd.step {cfg : LogCfg} {progs : Nat → List LogCall} {s s' : LogSys} (w : LOrd progs s) (a : LogAct)
    (h : logStep cfg s a = some s') : LOrd progs s' := by
  cases a with
  | suppress b => cases h; exact w
  | step t stamp =>
    unfold logStep at h
    dsimp only at h
    have d := w t
    cases hp : (s.th t).pc with
    | idle =>
      rw [hp] at h d; dsimp only at h
      cases ht : (s.th t).todo with
      | nil => rw [ht] at h; cases h
      | cons c cs =>
        rw [ht] at h d; dsimp only at h
        split at h <;> cases h
        all_goals
          intro u
          by_cases hu : u = t
          · subst hu
            simp only [upd, if_pos]
            refine List.Sublist.trans ?_ d
            simp [logPend]
          · simp only [upd, if_neg hu]; exact w u
    | wants c =>
      rw [hp] at h d; dsimp only at h
      cases hh : s.holder with
      | some w => rw [hh] at h; cases h
      | none =>
        rw [hh] at h; cases h
        intro u
        by_cases hu : u = t
        · subst hu; simpa [upd, logPend] using d
        · simp only [upd, if_neg hu]; exact w u
    | exits st c => rw [hp] at h; cases h
    | writes st c ps =>
      rw [hp] at h d; try dsimp only at h
      cases ps with
      | cons p ps =>
        cases h
        intro u
        by_cases hu : u = t
        · subst hu; simpa [upd, logPend] using d
        · simp only [upd, if_neg hu]; exact w u
      | nil =>
        dsimp only at h
        split at h <;> cases h
        all_goals
          intro u
          by_cases hu : u = t
          · subst hu; simpa [upd, logPend, ofThread] using d
          · have := w u; simpa [upd, hu, ofThread, Ne.symm hu] using this

/-! ## C112 -/

/-- C112: as long as every text can be written, the log is at every moment a sequence of whole lines, one for each entry logged so far, in
the order in which they were logged, and, only if a thread is just logging, the beginning of its line; the entries of a thread are in the
order in which it logged them.  Any number of threads, however interleaved, with `suppress` set and reset at any time. -/
theorem C112_partial (cfg : LogCfg) (hc : PlainLog cfg) (hush : Bool) (progs : Nat → List LogCall)
    (hd : ∀ t, ∀ c ∈ progs t, ∀ d ∈ c.data, Writable cfg.enc d) (as : List LogAct)
    (ha : ∀ t st, LogAct.step t st ∈ as → Writable cfg.enc st) (s : LogSys) (h : logRun cfg (.init hush progs) as = some s) :
    (∃ cur, s.out.text = (s.entries.map fun e => entryLine cfg.host cfg.prog e.2.1 e.2.2).flatten ++ cur ∧
      (s.holder = none → cur = []) ∧
      (cur ≠ [] → ∃ t st c ps, (s.th t).pc = .writes st c ps ∧ cur <+: entryLine cfg.host cfg.prog st c)) ∧
    ∀ t, (ofThread t s.entries).Sublist (progs t) := by
  have i := run_loginv h
  have x : LText cfg s := run_text hc as _ _ ha (.init hush progs)
    ⟨hd, fun t c h => (by cases h), fun t st c ps h => (by cases h)⟩
    ⟨rfl, [], ⟨fun t st c ps h => (by cases h), fun _ => rfl⟩, rfl⟩ h
  have o : LOrd progs s := log_induct (P := LOrd progs) (fun _ a _ i h => i.step a h) as _ _
    (fun t => by simp [LogSys.init, ofThread, logPend]) h
  obtain ⟨_, cur, ⟨k1, k2⟩, htx⟩ := x
  refine ⟨⟨cur, htx, fun hn => k2 fun t st c ps hx => ?_, fun hne => ?_⟩, fun t => ?_⟩
  · have := (i.hold t).2 (.inl ⟨st, c, ps, hx⟩); rw [hn] at this; cases this
  · by_cases hw : ∃ t st c ps, (s.th t).pc = .writes st c ps
    · obtain ⟨t, st, c, ps, hx⟩ := hw
      obtain ⟨pre, h1, h2⟩ := k1 t st c ps hx
      exact ⟨t, st, c, ps, hx, by rw [← pieces_line, ← h1, h2, List.flatten_append]; exact List.prefix_append _ _⟩
    · exact absurd (k2 fun t st c ps hx => hw ⟨t, st, c, ps, hx⟩) hne
  · refine List.Sublist.trans ?_ (o t)
    rw [List.append_assoc]; exact List.sublist_append_left _ _

/-- C112: if nobody touches `suppress`, then as soon as no thread can go on, each thread has logged exactly what is to be logged of its
program – unless something ended the program with `FAIL_LOG`: then its entry is the last one. -/
theorem C112_complete (cfg : LogCfg) (hush : Bool) (progs : Nat → List LogCall) (as : List LogAct) (hq : ∀ b, LogAct.suppress b ∉ as)
    (s : LogSys) (h : logRun cfg (.init hush progs) as = some s) (hend : ∀ t st, logStep cfg s (.step t st) = none) :
    (∀ t, ofThread t s.entries = (progs t).filter fun c => Wanted cfg.level hush c) ∨
    ∃ t st c pre, c.level = .fail ∧ (s.th t).pc = .exits st c ∧ s.entries = pre ++ [(t, st, c)] := by
  have i := run_loginv h
  have w : LWho cfg hush progs s := by
    have : ∀ (as : List LogAct) (s0 s' : LogSys), (∀ b, LogAct.suppress b ∉ as) → LWho cfg hush progs s0 → logRun cfg s0 as = some s' →
        LWho cfg hush progs s' := by
      intro as
      induction as with
      | nil => intro s s' _ h hr; cases hr; exact h
      | cons a as ih =>
        intro s s' hq h hr
        unfold logRun at hr
        cases h1 : logStep cfg s a with
        | none => rw [h1] at hr; cases hr
        | some s1 =>
          rw [h1] at hr
          cases a with
          | suppress b => exact absurd (.head _) (hq b)
          | step t st => exact ih s1 s' (fun b hb => hq b (.tail _ hb)) (LWho.step h t st h1) hr
    exact this as _ _ hq ⟨rfl, fun t => ⟨[], rfl, rfl⟩⟩ h
  by_cases hx : ∃ t st c, (s.th t).pc = .exits st c
  · obtain ⟨t, st, c, hx⟩ := hx
    obtain ⟨h1, pre, h2⟩ := i.ends t st c hx
    exact .inr ⟨t, st, c, pre, h1, hx, h2⟩
  · left
    have nw : ∀ t st c ps, (s.th t).pc ≠ .writes st c ps := by
      intro t st c ps hp
      have := hend t []
      unfold logStep at this; dsimp only at this; rw [hp] at this
      cases ps with
      | cons p ps => cases this
      | nil => dsimp only at this; split at this <;> cases this
    have nh : s.holder = none := by
      cases hh : s.holder with
      | none => rfl
      | some t =>
        rcases (i.hold t).1 hh with ⟨st, c, ps, hp⟩ | ⟨st, c, hp⟩
        · exact absurd hp (nw t st c ps)
        · exact absurd ⟨t, st, c, hp⟩ hx
    intro t
    obtain ⟨done, d1, d2⟩ := w.2 t
    have hs := hend t []
    unfold logStep at hs; dsimp only at hs
    cases hp : (s.th t).pc with
    | idle =>
      rw [hp] at hs d2; dsimp only at hs
      cases ht : (s.th t).todo with
      | nil =>
        rw [ht, List.append_nil] at d1
        rw [d1, ← d2]; simp [logPend]
      | cons c cs => rw [ht] at hs; dsimp only at hs; split at hs <;> cases hs
    | wants c => rw [hp, nh] at hs; cases hs
    | exits st c => exact absurd ⟨t, st, c, hp⟩ hx
    | writes st c ps => exact absurd hp (nw t st c ps)

/-- How much a thread still has to do. -/
def logLeft : LogThread → Nat := fun x => (x.todo.map fun c => c.data.length + 10).sum + match x.pc with
  | .idle => 0
  | .wants c => c.data.length + 9
  | .writes _ _ ps => ps.length + 1
  | .exits _ _ => 0

/-- C112: logging does not hang: every step of a thread brings it nearer to its end, and no other thread further from it. -/
theorem C112_progress (cfg : LogCfg) (s s' : LogSys) (t : Nat) (st : List Nat) (h : logStep cfg s (.step t st) = some s') :
    logLeft (s'.th t) < logLeft (s.th t) ∧ ∀ u, u ≠ t → s'.th u = s.th u := by
  unfold logStep at h
  dsimp only at h
  cases hp : (s.th t).pc with
  | idle =>
    rw [hp] at h; dsimp only at h
    cases ht : (s.th t).todo with
    | nil => rw [ht] at h; cases h
    | cons c cs =>
      rw [ht] at h; dsimp only at h
      split at h <;> cases h
      all_goals
        refine ⟨?_, fun u hu => by simp only [upd, if_neg hu]⟩
        simp only [upd, if_pos, logLeft, hp, ht, List.map_cons, List.sum_cons]; omega
  | wants c =>
    rw [hp] at h; dsimp only at h
    cases hh : s.holder with
    | some w => rw [hh] at h; cases h
    | none =>
      rw [hh] at h; cases h
      refine ⟨?_, fun u hu => by simp only [upd, if_neg hu]⟩
      simp only [upd, if_pos, logLeft, hp, LogCfg.pieces, List.length_append, List.length_cons, List.length_nil]; omega
  | exits st c => rw [hp] at h; cases h
  | writes st c ps =>
    rw [hp] at h; try dsimp only at h
    cases ps with
    | cons p ps =>
      cases h
      refine ⟨?_, fun u hu => by simp only [upd, if_neg hu]⟩
      simp only [upd, if_pos, logLeft, hp, List.length_cons]; omega
    | nil =>
      dsimp only at h
      split at h <;> cases h
      all_goals
        refine ⟨?_, fun u hu => by simp only [upd, if_neg hu]⟩
        simp only [upd, if_pos, logLeft, hp, List.length_nil]; omega

/-- C112: an entry of `FAIL_LOG` is the last one: from then on nothing is logged, whatever the other threads do. -/
theorem C112_fail (cfg : LogCfg) (hush : Bool) (progs : Nat → List LogCall) (as bs : List LogAct) (s s' : LogSys)
    (h : logRun cfg (.init hush progs) as = some s) (e : Nat × List Nat × LogCall) (he : e ∈ s.entries) (hf : e.2.2.level = .fail)
    (h' : logRun cfg s bs = some s') : s'.entries = s.entries ∧ s'.out = s.out ∧ ∃ pre, s.entries = pre ++ [e] := by
  have i := run_loginv h
  obtain ⟨pre, post, hpp⟩ := List.append_of_mem he
  obtain ⟨rfl, t, st, c, hx⟩ := i.last pre e post hpp hf
  have key : LogInv s' ∧ (s'.th t).pc = .exits st c ∧ s'.entries = s.entries ∧ s'.out = s.out := by
    refine log_induct (P := fun r => LogInv r ∧ (r.th t).pc = .exits st c ∧ r.entries = s.entries ∧ r.out = s.out) ?_ bs s s'
      ⟨i, hx, rfl, rfl⟩ h'
    rintro r a r' ⟨ir, hr, e1, e2⟩ hst
    refine ⟨ir.step a hst, ?_⟩
    cases a with
    | suppress b => cases hst; exact ⟨hr, e1, e2⟩
    | step u stamp =>
      have hh := (ir.hold t).2 (.inr ⟨st, c, hr⟩)
      unfold logStep at hst
      dsimp only at hst
      have hut : u ≠ t := by rintro rfl; rw [hr] at hst; cases hst
      cases hp : (r.th u).pc with
      | idle =>
        rw [hp] at hst; dsimp only at hst
        cases ht : (r.th u).todo with
        | nil => rw [ht] at hst; cases hst
        | cons c cs =>
          rw [ht] at hst; dsimp only at hst
          split at hst <;> cases hst
          all_goals exact ⟨by simp only [upd, if_neg (Ne.symm hut)]; exact hr, e1, e2⟩
      | wants c => rw [hp, hh] at hst; cases hst
      | exits st c => rw [hp] at hst; cases hst
      | writes st c ps =>
        have := (ir.hold u).2 (.inl ⟨_, _, _, hp⟩)
        rw [hh] at this; cases this; exact absurd rfl hut
  exact ⟨key.2.2.1, key.2.2.2, pre, hpp⟩

/-- Once one character could not be written, nothing at all is logged any more, by any thread. -/
theorem log_dead (cfg : LogCfg) (s s' : LogSys) (hb : s.out.bad = true) (as : List LogAct) (h : logRun cfg s as = some s') :
    s'.out = s.out := by
  refine log_induct (P := fun r => r.out = s.out) ?_ as s s' rfl h
  intro r a r' hr hst
  cases a with
  | suppress b => cases hst; exact hr
  | step u stamp =>
    unfold logStep at hst
    dsimp only at hst
    repeat' split at hst
    all_goals first | (cases hst; done) | skip
    all_goals cases hst
    all_goals first | exact hr | skip
    dsimp only; rw [hr]; unfold WOut.put; rw [if_pos hb]

/-- The log of a program in the locale "C". -/
def demoLog : LogCfg := { host := ascii "www", prog := ascii "app[7]", level := 2, enc := fun c => c < 128 }

theorem demoLog_plain : PlainLog demoLog :=
  ⟨by unfold Writable; decide +kernel, by unfold Writable; decide +kernel, by unfold Writable; decide +kernel,
    fun l => by cases l <;> (unfold Writable; decide +kernel)⟩

/-- Two threads: one logs two warnings and a message for debugging, the other an error. -/
def demoProgs : Nat → List LogCall
  | 0 => [⟨.warning, [ascii "peer ", ascii "hung up"]⟩, ⟨.debug, [ascii "x"]⟩, ⟨.warning, [ascii "bad"]⟩]
  | 1 => [⟨.error, [ascii "no memory"]⟩]
  | _ => []

/-- Thread 1 comes while thread 0 logs, and is next. -/
def demoActs : List LogAct :=
  [.step 0 [], .step 1 [], .step 0 (ascii "10:00 ")] ++ List.replicate 10 (.step 0 []) ++ [.step 1 (ascii "10:01 ")] ++
  [.step 0 [], .step 0 []] ++ List.replicate 9 (.step 1 []) ++ [.step 0 (ascii "10:02 ")] ++ List.replicate 9 (.step 0 [])

/-- The hypotheses of C112 are met, and this is what it gives. -/
example : (logRun demoLog (.init false demoProgs) demoActs).map (fun s => (s.out.text, s.holder)) =
    some (ascii "10:00 www app[7] [warning]: peer hung up\n10:01 www app[7] [error]: no memory\n10:02 www app[7] [warning]: bad\n", none) := by
  decide +kernel

example : ∀ t, ∀ c ∈ demoProgs t, ∀ d ∈ c.data, Writable demoLog.enc d
  | 0 => by unfold Writable; decide +kernel
  | 1 => by unfold Writable; decide +kernel
  | _ + 2 => by intro c hc; cases hc

example : ∀ st ∈ [ascii "10:00 ", ascii "10:01 ", ascii "10:02 ", []], Writable demoLog.enc st := by unfold Writable; decide +kernel

/-- `FAIL_LOG` of one thread while another waits to log. -/
example : (logRun demoLog (.init false fun | 0 => [⟨.fail, [ascii "over"]⟩] | 1 => [⟨.error, [ascii "e"]⟩] | _ => [])
    ([.step 0 [], .step 1 [], .step 0 []] ++ List.replicate 9 (.step 0 []))).map (fun s => (s.entries, s.holder)) =
    some ([(0, [], ⟨.fail, [ascii "over"]⟩)], some 0) := by decide +kernel

/-- A parameter such as REMOTE_ADDR as src/address.cpp 151-156 logs it: the byte ff of a narrow text becomes the wide character −1. -/
def badAddr : LogCall := ⟨.warning, [ascii "Error converting IPv6 address ", [0xffffffff]]⟩

/-- C112 does not hold: a character that cannot be written – which a peer can send – ends the log in the middle of the line, for good:
whatever is logged afterwards, by any number of threads, is missing. -/
theorem C112_violated : ∃ (cfg : LogCfg) (_ : PlainLog cfg) (as : List LogAct) (s : LogSys),
    (∀ t st, LogAct.step t st ∈ as → Writable cfg.enc st) ∧
    logRun cfg (.init false fun t => if t = 0 then [badAddr] else [⟨.error, [ascii "no memory"]⟩]) as = some s ∧
    (ofThread 1 s.entries = [⟨.error, [ascii "no memory"]⟩]) ∧
    s.out.text = ascii "www app[7] [warning]: Error converting IPv6 address " ∧
    ∀ bs s', logRun cfg s bs = some s' → s'.out.text = s.out.text := by
  let r := logRun demoLog (.init false fun t => if t = 0 then [badAddr] else [⟨.error, [ascii "no memory"]⟩])
    (List.replicate 12 (.step 0 []) ++ List.replicate 11 (.step 1 []))
  have hr : r.map (fun s => (ofThread 1 s.entries, s.out.text, s.out.bad)) =
    some ([⟨.error, [ascii "no memory"]⟩], ascii "www app[7] [warning]: Error converting IPv6 address ", true) := by decide +kernel
  cases hs : r with
  | none => rw [hs] at hr; cases hr
  | some s =>
    rw [hs] at hr
    simp only [Option.map_some, Option.some.injEq, Prod.mk.injEq] at hr
    obtain ⟨h1, h2, h3⟩ := hr
    refine ⟨demoLog, demoLog_plain, _, s, ?_, hs, h1, h2, fun bs s' h => by rw [log_dead _ _ _ h3 _ h]⟩
    intro t st hm
    simp only [List.mem_append, List.mem_replicate, LogAct.step.injEq] at hm
    rcases hm with ⟨_, _, rfl⟩ | ⟨_, _, rfl⟩ <;> (intro x hx; cases hx)

/-! ## C113 -/

theorem hush_same (hush : Bool) (ts : List Turn) : ∀ (g : Group) (block : Bool), (hush = true → (g.poll block ts).1 ≠ .exit) →
    g.pollHush hush block ts = g.poll block ts := by
  have ends : ∀ (g g' : Group) (x : Polled × Group), (hush = true → (Polled.exit, g).1 ≠ .exit) →
      (if hush = true then x else (Polled.exit, g')) = (Polled.exit, g') := by
    intro g g' x h
    cases hush
    · rfl
    · exact absurd rfl (h rfl)
  induction ts with
  | nil => intro g block _; rfl
  | cons t ts ih =>
    intro g block h
    unfold Group.poll at h
    unfold Group.pollHush Group.poll
    by_cases hp : g.listeners.length + g.socks.length > 0
    · rw [if_pos hp] at h ⊢
      rw [if_pos hp]
      dsimp only at h ⊢
      cases hl : (g.refresh && g.accept && !g.listeners.isEmpty && !t.relisted)
      · rw [hl] at h
        simp only [Bool.false_and, Bool.false_eq_true, if_false] at h ⊢
        generalize g.relist = g' at h ⊢
        cases ht : t.poll with
        | failed => rw [ht] at h; exact ends _ _ _ h
        | signal => rfl
        | timeout =>
          rw [ht] at h; dsimp only at h ⊢
          cases block
          · rfl
          · exact ih _ _ h
        | event fd b =>
          rw [ht] at h; dsimp only at h ⊢
          by_cases h1 : fd ∈ g'.listeners
          · rw [if_pos h1] at h ⊢; rw [if_pos h1]
            cases h2 : b.onlyIn
            · rw [h2] at h; exact ends _ _ _ h
            · rw [h2] at h; simp only [if_true] at h ⊢
              cases h3 : t.accepted with
              | none => rw [h3] at h; exact ends _ _ _ h
              | some new => rw [h3] at h; exact ih _ _ h
          · rw [if_neg h1] at h ⊢; rw [if_neg h1]
            by_cases h2 : fd = g'.wakeFd
            · rw [if_pos h2] at h ⊢; rw [if_pos h2]
              cases h3 : b.onlyIn
              · rw [h3] at h; simp only [Bool.false_eq_true, if_false] at h ⊢
                cases h4 : (b.hup || b.rdHup)
                · rw [h4] at h; simp only [Bool.false_eq_true, if_false] at h ⊢
                  cases h5 : b.err
                  · rfl
                  · rw [h5] at h; exact ends _ _ _ h
                · rw [h4] at h; exact ends _ _ _ h
              · rw [h3] at h; simp only [if_true] at h ⊢
                cases h4 : t.drained
                · rw [h4] at h; simp only [Bool.false_or, Bool.false_eq_true, if_false] at h ⊢
                  exact ends g' g' _ h
                · rw [h4] at h; exact ih _ _ h
            · rw [if_neg h2] at h ⊢; rw [if_neg h2]
              cases h3 : g'.socks.lookup fd with
              | none => rw [h3] at h; exact ih _ _ h
              | some x =>
                rw [h3] at h; dsimp only at h ⊢
                cases h4 : (b.rdHup || b.hup || b.err)
                · rw [h4] at h; simp only [Bool.false_eq_true, if_false] at h ⊢
                  cases h5 : b.inn
                  · rw [h5] at h; exact ends _ _ _ h
                  · rfl
                · rfl
      · rw [hl] at h
        cases hush
        · rfl
        · exact absurd rfl (h rfl)
    · rw [if_neg hp, if_neg hp]

/-- Without `suppress` it is the model of C110. -/
theorem hush_off (g : Group) (block : Bool) (ts : List Turn) : g.pollHush false block ts = g.poll block ts :=
  hush_same false ts g block fun h => by cases h

/-- C113, what holds: as long as nothing happens that ends the program, `suppress` changes nothing but the log. -/
theorem C113_partial (ts : List Turn) (g : Group) (block : Bool) (h : (g.pollHush false block ts).1 ≠ .exit) :
    g.pollHush true block ts = g.pollHush false block ts := by
  rw [hush_off] at h ⊢
  exact hush_same true ts g block fun _ => h

/-- C113 does not hold: with `suppress`, what is to end the program passes unnoticed.  A listening socket that cannot be polled any more
is given up without a word: `poll()` goes on sleeping, and the listeners stay out of the poll set; a second manager replaces the first. -/
theorem C113_violated (g : Group) (t : Turn) (hl : g.listeners ≠ []) (ha : g.accept = true) (hr : g.refresh = true)
    (hf : t.relisted = false) (ht : t.poll = .timeout) :
    (g.pollHush false true [t]).1 = .exit ∧
    (let r := g.pollHush true true [t]; r.1 = .waiting ∧ r.2.accept = true ∧ r.2.polled = false ∧ r.2.refresh = false) ∧
    ∀ a b : Nat, newManager false (some a) b = none ∧ newManager true (some a) b = some (some b) := by
  have hp : g.listeners.length + g.socks.length > 0 := by
    cases h : g.listeners with
    | nil => exact absurd h hl
    | cons a l => simp; omega
  have he : g.listeners.isEmpty = false := by
    cases h : g.listeners with
    | nil => exact absurd h hl
    | cons a l => rfl
  refine ⟨?_, ?_, fun a b => ⟨rfl, rfl⟩⟩
  · rw [hush_off]; unfold Group.poll; rw [if_pos hp, hr, ha, he, hf]; rfl
  · unfold Group.pollHush; rw [if_pos hp, hr, ha, he, hf, ht]
    simp [Group.pollHush, hp]

example : (Group.pollHush false { listeners := [5], wakeFd := 9, accept := true, refresh := true, polled := false, waking := false, socks := [], closed := [] }
    true [{ relisted := false, poll := .timeout }]).1 = .exit := by decide +kernel

end Fcgi.Props
