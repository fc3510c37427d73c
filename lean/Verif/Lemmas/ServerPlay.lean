import Verif.Lemmas.ServerDone
/-! # Runs of the server given by a list of choices, for examples -/
namespace Fcgi.Model
open Fcgi.Spec
variable {U : Type} [Transmits U]

inductive SrvChoice where
  | op (o : TOp)          -- something at the transceiver: by a peer, or its thread reads or writes
  | outer (o : Outer)
  | go (n : Nat)          -- up to n steps of the threads, whichever can take one

abbrev SrvOut (U : Type) := Option (List MEvent × List TOp × Srv U)

def srvSend (s : Srv U) (t : Nat) : SrvOut U :=
  match s.out t with
  | x :: rest => some ([], [.send x.1 x.2.1 x.2.2], { s with t := send s.t x.1 x.2.1 x.2.2, out := put s.out t rest })
  | [] => none

def srvWork (P : SrvProg U) (s : Srv U) (t : Nat) : SrvOut U :=
  match s.out t, s.loops t with
  | [], none =>
    match hstep P.prog t s.m with
    | some (es, m') => some (es, [], { s with
        m := m'
        out := put s.out t (sendsOf P.replyHeap t s.m m').1
        loops := put s.loops t (if (sendsOf P.replyHeap t s.m m').2 then some (sendsOf P.replyHeap t s.m m').1 else none) })
    | none => none
  | _, _ => none

def srvGive (P : SrvProg U) (s : Srv U) : SrvOut U :=
  match s.t.msgs[s.given]? with
  | some x =>
    match estep P.prog (.push 0 x.id ⟨0, x.data⟩) s.m with
    | some (es, m') => some (es, [], { s with m := m', given := s.given + 1 })
    | none => none
  | none => none

def srvPush (P : SrvProg U) (s : Srv U) : SrvOut U :=
  match pstep P.prog 0 0 s.m with
  | some (es, m') => some (es, [], { s with m := m' })
  | none => none

def srvNet (P : SrvProg U) (s : Srv U) (o : TOp) : SrvOut U :=
  match s.m.pu 0 with
  | .idle =>
    if s.given = s.t.msgs.length then
      match o.step P.recvHeap s.t with
      | .ok t' => some ([], [o], s.withT t')
      | _ => none
    else none
  | _ => none

def srvTx (P : SrvProg U) (s : Srv U) : SrvOut U :=
  if s.t.queue.isEmpty && s.t.pc == .loop then none else srvNet P s (.tx (.accept 1000))

def srvOp (P : SrvProg U) (s : Srv U) (o : TOp) : SrvOut U :=
  if o.byPeer then
    match o.step P.recvHeap s.t with
    | .ok t' => some ([], [o], s.withT t')
    | _ => none
  else if o.byThread then srvNet P s o
  else none

def Outer.pushes : Outer → Bool
  | .push _ _ _ => true
  | _ => false

def srvOuter (P : SrvProg U) (s : Srv U) (e : Outer) : SrvOut U :=
  if e.around && !e.pushes then
    match estep P.prog e s.m with
    | some (es, m') => some (es, [], { s with m := m' })
    | none => none
  else none

def firstOf : List (Unit → SrvOut U) → SrvOut U
  | [] => none
  | f :: l =>
    match f () with
    | some x => some x
    | none => firstOf l

def srvAuto (P : SrvProg U) (s : Srv U) : SrvOut U :=
  firstOf ([fun _ => srvPush P s] ++ (List.range P.threads).map (fun t _ => srvSend s t) ++ (List.range P.threads).map (fun t _ => srvWork P s t) ++
    [fun _ => srvGive P s, fun _ => srvTx P s])

def srvGo (P : SrvProg U) : Nat → List MEvent × List TOp × Srv U → List MEvent × List TOp × Srv U
  | 0, x => x
  | n + 1, x =>
    match srvAuto P x.2.2 with
    | some y => srvGo P n (x.1 ++ y.1, x.2.1 ++ y.2.1, y.2.2)
    | none => x

def srvPlay (P : SrvProg U) : List SrvChoice → List MEvent × List TOp × Srv U → SrvOut U
  | [], x => some x
  | .go n :: cs, x => srvPlay P cs (srvGo P n x)
  | .op o :: cs, x =>
    match srvOp P x.2.2 o with
    | some y => srvPlay P cs (x.1 ++ y.1, x.2.1 ++ y.2.1, y.2.2)
    | none => none
  | .outer o :: cs, x =>
    match srvOuter P x.2.2 o with
    | some y => srvPlay P cs (x.1 ++ y.1, x.2.1 ++ y.2.1, y.2.2)
    | none => none

/-- What a step made by the definitions above is. -/
def GoodStep (P : SrvProg U) (s : Srv U) (y : List MEvent × List TOp × Srv U) : Prop :=
  SrvStep P s y.1 y.2.1 y.2.2 ∧ ∀ q, q ≠ 0 → y.2.2.m.pu q = s.m.pu q

theorem srvSend_good {P : SrvProg U} {s : Srv U} {t y} (h : srvSend s t = some y) : GoodStep P s y := by
  unfold srvSend at h
  split at h
  · rename_i x rest ho
    cases h
    exact ⟨.send t x rest ho, fun _ _ => rfl⟩
  · cases h

theorem srvWork_good {P : SrvProg U} {s : Srv U} {t y} (h : srvWork P s t = some y) : GoodStep P s y := by
  unfold srvWork at h
  split at h
  · rename_i ho hl
    split at h
    · rename_i es m' hh
      cases h
      refine ⟨.work t ho hl hh, fun q _ => ?_⟩
      show m'.pu q = _
      rw [(hstep_table P.prog t _ _ _ hh).1]
    · cases h
  · cases h

theorem srvGive_good {P : SrvProg U} {s : Srv U} {y} (h : srvGive P s = some y) : GoodStep P s y := by
  unfold srvGive at h
  split at h
  · rename_i x hx
    split at h
    · rename_i es m' hh
      cases h
      refine ⟨.give x hx hh, fun q hq => ?_⟩
      show m'.pu q = _
      simp only [estep] at hh
      split at hh
      · cases hh; simp only [MSt.pgoto]; rw [put_other _ _ _ hq]
      · cases hh
    · cases h
  · cases h

theorem srvPush_good {P : SrvProg U} {s : Srv U} {y} (h : srvPush P s = some y) : GoodStep P s y := by
  unfold srvPush at h
  split at h
  · rename_i es m' hh
    cases h
    refine ⟨.pusher 0 0 hh, fun q hq => ?_⟩
    show m'.pu q = _
    obtain ⟨pc, h1, _⟩ := pstep_sweep P.prog 0 0 _ _ _ hh
    rw [h1, put_other _ _ _ hq]
  · cases h

theorem srvNet_good {P : SrvProg U} {s : Srv U} {o y} (ho : o.byThread = true) (h : srvNet P s o = some y) : GoodStep P s y := by
  unfold srvNet at h
  split at h
  · rename_i hi
    split at h
    · rename_i hg
      split at h
      · rename_i t' ht
        cases h
        exact ⟨.net o ho hi hg ht, fun _ _ => rfl⟩
      · cases h
    · cases h
  · cases h

theorem srvOp_good {P : SrvProg U} {s : Srv U} {o y} (h : srvOp P s o = some y) : GoodStep P s y := by
  unfold srvOp at h
  split at h
  · rename_i hb
    split at h
    · rename_i t' ht
      cases h
      exact ⟨.peer o hb ht, fun _ _ => rfl⟩
    · cases h
  · split at h
    · rename_i hb; exact srvNet_good hb h
    · cases h

theorem srvOuter_good {P : SrvProg U} {s : Srv U} {e y} (h : srvOuter P s e = some y) : GoodStep P s y := by
  unfold srvOuter at h
  split at h
  · rename_i hb
    simp only [Bool.and_eq_true] at hb
    split at h
    · rename_i es m' hh
      cases h
      refine ⟨.outer e hb.1 hh, fun q hq => ?_⟩
      show m'.pu q = _
      cases e with
      | push p k m => simp [Outer.pushes] at hb
      | _ =>
        simp only [estep] at hh
        repeat' split at hh
        all_goals first
          | (cases hh; done)
          | (cases hh; rfl)
    · cases h
  · cases h

theorem firstOf_good {P : SrvProg U} {s : Srv U} {l : List (Unit → SrvOut U)} (hl : ∀ f ∈ l, ∀ y, f () = some y → GoodStep P s y) {y}
    (h : firstOf l = some y) : GoodStep P s y := by
  induction l with
  | nil => cases h
  | cons f l ih =>
    unfold firstOf at h
    split at h
    · rename_i x hx
      cases h
      exact hl f (by simp) _ hx
    · exact ih (fun f hf => hl f (by simp [hf])) h

theorem srvAuto_good {P : SrvProg U} {s : Srv U} {y} (h : srvAuto P s = some y) : GoodStep P s y := by
  refine firstOf_good ?_ h
  intro f hf y hy
  simp only [List.mem_append, List.mem_cons, List.not_mem_nil, or_false, List.mem_map] at hf
  rcases hf with ((hf | ⟨t, _, hf⟩) | ⟨t, _, hf⟩) | hf | hf
  · subst hf; exact srvPush_good hy
  · subst hf; exact srvSend_good hy
  · subst hf; exact srvWork_good hy
  · subst hf; exact srvGive_good hy
  · subst hf
    simp only [srvTx] at hy
    split at hy
    · cases hy
    · exact srvNet_good rfl hy

/-- What a run made by the definitions above is. -/
def GoodRun (P : SrvProg U) (x : List MEvent × List TOp × Srv U) : Prop :=
  SrvRun P srvInit x.1 x.2.1 x.2.2 ∧ ∀ q, q ≠ 0 → x.2.2.m.pu q = .idle

theorem GoodRun.step {P : SrvProg U} {x y} (h : GoodRun P x) (hy : GoodStep P x.2.2 y) : GoodRun P (x.1 ++ y.1, x.2.1 ++ y.2.1, y.2.2) :=
  ⟨.step h.1 hy.1, fun q hq => (hy.2 q hq).trans (h.2 q hq)⟩

theorem srvGo_good {P : SrvProg U} (n) : ∀ {x}, GoodRun P x → GoodRun P (srvGo P n x) := by
  induction n with
  | zero => intro x h; exact h
  | succ n ih =>
    intro x h
    unfold srvGo
    split
    · rename_i y hy; exact ih (h.step (srvAuto_good hy))
    · exact h

theorem srvPlay_good {P : SrvProg U} (cs) : ∀ {x y}, GoodRun P x → srvPlay P cs x = some y → GoodRun P y := by
  induction cs with
  | nil => intro x y h hy; cases hy; exact h
  | cons c cs ih =>
    intro x y h hy
    cases c with
    | go n => exact ih (srvGo_good n h) hy
    | op o =>
      simp only [srvPlay] at hy
      split at hy
      · rename_i z hz; exact ih (h.step (srvOp_good hz)) hy
      · cases hy
    | outer o =>
      simp only [srvPlay] at hy
      split at hy
      · rename_i z hz; exact ih (h.step (srvOuter_good hz)) hy
      · cases hy

/-- A run by choices, and what is found at its end. -/
theorem srvPlay_any {P : SrvProg U} {cs : List SrvChoice} {f : List MEvent × List TOp × Srv U → Bool}
    (h : (srvPlay P cs ([], [], srvInit)).any f = true) :
    ∃ tr ops s, SrvRun P srvInit tr ops s ∧ f (tr, ops, s) = true ∧
      (s.m.pu 0 = .idle → (∀ t, t < P.threads → (s.m.th t).resting = true) → Still P.prog s.m) := by
  cases hp : srvPlay P cs ([], [], srvInit) with
  | none => rw [hp] at h; cases h
  | some y =>
    rw [hp] at h
    have g := srvPlay_good cs (P := P) (x := ([], [], srvInit)) ⟨.refl _, fun _ _ => rfl⟩ hp
    refine ⟨y.1, y.2.1, y.2.2, g.1, h, fun h2 h3 => still_of_rest (fun t => ?_) (fun q => ?_)⟩
    · by_cases ht : t < P.threads
      · exact h3 t ht
      · rw [(run_kq (srv_parts g.1).m).1.off t (by exact Nat.le_of_not_lt ht)]; rfl
    · by_cases hq : q = 0
      · subst hq; exact h2
      · exact g.2 q hq

theorem srv_joins {P : SrvProg U} {a b d : Srv U} {tr1 ops1 tr2 ops2} (h1 : SrvRun P a tr1 ops1 b) (h2 : SrvRun P b tr2 ops2 d) :
    SrvRun P a (tr1 ++ tr2) (ops1 ++ ops2) d := by
  induction h2 with
  | refl => simpa using h1
  | step _ hs ih => rw [← List.append_assoc, ← List.append_assoc]; exact .step ih hs

/-- What a run made by the definitions above from another state is. -/
theorem srvGo_from {P : SrvProg U} (n) : ∀ x, ∃ tr ops, SrvRun P x.2.2 tr ops (srvGo P n x).2.2 ∧ (srvGo P n x).1 = x.1 ++ tr ∧
    (srvGo P n x).2.1 = x.2.1 ++ ops := by
  induction n with
  | zero => intro x; exact ⟨[], [], .refl _, by simp [srvGo], by simp [srvGo]⟩
  | succ n ih =>
    intro x
    unfold srvGo
    split
    · rename_i y hy
      obtain ⟨tr, ops, h, e1, e2⟩ := ih (x.1 ++ y.1, x.2.1 ++ y.2.1, y.2.2)
      exact ⟨[] ++ y.1 ++ tr, [] ++ y.2.1 ++ ops, srv_joins (.step (.refl _) (srvAuto_good hy).1) h, by simp [e1], by simp [e2]⟩
    · exact ⟨[], [], .refl _, by simp, by simp⟩

theorem srvPlay_from {P : SrvProg U} (cs) : ∀ {x y}, srvPlay P cs x = some y → ∃ tr ops, SrvRun P x.2.2 tr ops y.2.2 ∧ y.1 = x.1 ++ tr ∧ y.2.1 = x.2.1 ++ ops := by
  induction cs with
  | nil => intro x y hy; cases hy; exact ⟨[], [], .refl _, by simp, by simp⟩
  | cons c cs ih =>
    intro x y hy
    have one : ∀ z, GoodStep P x.2.2 z → srvPlay P cs (x.1 ++ z.1, x.2.1 ++ z.2.1, z.2.2) = some y →
        ∃ tr ops, SrvRun P x.2.2 tr ops y.2.2 ∧ y.1 = x.1 ++ tr ∧ y.2.1 = x.2.1 ++ ops := by
      intro z hz hp
      obtain ⟨tr, ops, h, e1, e2⟩ := ih hp
      exact ⟨[] ++ z.1 ++ tr, [] ++ z.2.1 ++ ops, srv_joins (.step (.refl _) hz.1) h, by simp [e1], by simp [e2]⟩
    cases c with
    | go n =>
      obtain ⟨tr1, ops1, h1, a1, a2⟩ := srvGo_from (P := P) n x
      obtain ⟨tr2, ops2, h2, b1, b2⟩ := ih (x := srvGo P n x) hy
      exact ⟨tr1 ++ tr2, ops1 ++ ops2, srv_joins h1 h2, by rw [b1, a1, List.append_assoc], by rw [b2, a2, List.append_assoc]⟩
    | op o =>
      simp only [srvPlay] at hy
      split at hy
      · rename_i z hz; exact one z (srvOp_good hz) hy
      · cases hy
    | outer o =>
      simp only [srvPlay] at hy
      split at hy
      · rename_i z hz; exact one z (srvOuter_good hz) hy
      · cases hy

end Fcgi.Model
