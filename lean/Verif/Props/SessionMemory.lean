import Verif.Props.Session
/-! # C134: the session store forgets -/
namespace Fcgi.Props
open Fcgi Fcgi.Model Fcgi.Spec

/-- The use of an event. -/
def useOf {T} : SessionEvent T → Option (Bytes × Int)
  | .generated id _ now => some (id, now)
  | .got id _ refreshed (some _) => some (id, refreshed)
  | _ => none

theorem usesSince_mem {T} {since : Int} {es : List (SessionEvent T)} {id : Bytes} {t : Int} (h : (id, t) ∈ es.filterMap useOf) (ht : since ≤ t) :
    id ∈ usesSince since es := by
  obtain ⟨e, he, hu⟩ := List.mem_filterMap.1 h
  refine List.mem_filterMap.2 ⟨e, he, ?_⟩
  cases e with
  | generated i d now => simp only [useOf, Option.some.injEq, Prod.mk.injEq] at hu; obtain ⟨rfl, rfl⟩ := hu; simp [ht]
  | got i now r res =>
    cases res with
    | none => cases hu
    | some d => simp only [useOf, Option.some.injEq, Prod.mk.injEq] at hu; obtain ⟨rfl, rfl⟩ := hu; simp [ht]
  | erased i => cases hu

/-- Distinct members of a list are not more than its length. -/
theorem distinct_length {l m : List Bytes} (hn : l.Nodup) (h : ∀ x ∈ l, x ∈ m) : l.length ≤ m.length := by
  induction l generalizing m with
  | nil => exact Nat.zero_le _
  | cons x l ih =>
    rw [List.nodup_cons] at hn
    have h1 := h x (by simp)
    have h2 := ih (m := m.erase x) hn.2 (fun y hy => (List.mem_erase_of_ne (by rintro rfl; exact hn.1 hy)).2 (h y (by simp [hy])))
    rw [List.length_erase_of_mem h1] at h2
    have : 0 < m.length := List.length_pos_of_mem h1
    simp only [List.length_cons]; omega

/-- What is in the store after some events. -/
structure Kept {T} (δ : Nat) (s : Sessions T) (us : List (Bytes × Int)) (c : Int) : Prop where
  uses : ∀ x ∈ s.sessions, (x.1, x.2.1) ∈ us
  nodup : (s.sessions.map Prod.fst).Nodup
  recent : ∀ x ∈ s.sessions, s.cleanupTime - 2 * s.keepAlive - δ ≤ x.2.1
  clock : s.cleanupTime - s.keepAlive ≤ c

theorem session_unknown {T} {l : List (Bytes × T)} {id : Bytes} (h : ¬ (l.lookup id).isSome) : id ∉ l.map Prod.fst := by
  induction l with
  | nil => simp
  | cons p l ih =>
    obtain ⟨k, v⟩ := p
    rw [List.lookup_cons] at h
    split at h
    · exact absurd rfl h
    · rename_i hk
      simp only [List.map_cons, List.mem_cons, not_or]
      exact ⟨by rintro rfl; simp at hk, ih h⟩

theorem kept_generate {T} {δ : Nat} {us : List (Bytes × Int)} {c : Int} (d : T) : ∀ (draws : List (Bytes × Int)) (s s' : Sessions T) (x : SessionId), Kept δ s us c →
    (c :: draws.map Prod.snd).Pairwise (· ≤ ·) → s.generate d draws = .ok (s', x) → s'.keepAlive = s.keepAlive ∧ x.timestamp ∈ c :: draws.map Prod.snd ∧
      Kept δ s' (us ++ [(x.data, x.timestamp)]) x.timestamp := by
  intro draws
  induction draws with
  | nil => intro s s' x _ _ e; cases e
  | cons p draws ih =>
    obtain ⟨id, now⟩ := p
    intro s s' x h hm e
    simp only [List.map_cons, List.pairwise_cons] at hm
    have hcn : c ≤ now := hm.1 now (by simp)
    simp only [Sessions.generate] at e
    split at e
    · obtain ⟨h1, h2, h3⟩ := ih s s' x h (List.pairwise_cons.2 ⟨fun a ha => hm.1 a (by simp [ha]), hm.2.2⟩) e
      refine ⟨h1, ?_, h3⟩
      rcases List.mem_cons.1 h2 with c | c
      · simp [c]
      · simp only [List.map_cons, List.mem_cons]; exact .inr (.inr c)
    · rename_i hno
      injection e with e
      injection e with e1 e2
      subst e1; subst e2
      refine ⟨rfl, by simp, ?_, ?_, ?_, ?_⟩
      · intro y hy
        rcases List.mem_cons.1 hy with rfl | hy
        · simp
        · exact List.mem_append_left _ (h.uses y hy)
      · simp only [List.map_cons, List.nodup_cons]
        exact ⟨session_unknown hno, h.nodup⟩
      · intro y hy
        have := h.clock
        rcases List.mem_cons.1 hy with rfl | hy
        · dsimp only; omega
        · exact h.recent y hy
      · have := h.clock; dsimp only; omega

theorem kept_get {T} {δ : Nat} {us : List (Bytes × Int)} {c : Int} {s : Sessions T} (h : Kept δ s us c) (id : Bytes) (now t1 t2 : Int) (h1 : c ≤ now) (h2 : now ≤ t1) (h3 : t1 ≤ t2)
    (hd : t1 ≤ now + δ) : (s.get id now t1 t2).1.keepAlive = s.keepAlive ∧
      Kept δ (s.get id now t1 t2).1 (us ++ (useOf (.got id now t2 (s.get id now t1 t2).2)).toList) t2 ∧
      ∀ x ∈ (s.get id now t1 t2).1.sessions, now - 2 * s.keepAlive - δ ≤ x.2.1 := by
  -- after the cleanup
  have hk : Kept δ (if now ≥ s.cleanupTime then s.cleanup (now - s.keepAlive) t1 else s) us t1 ∧
      (if now ≥ s.cleanupTime then s.cleanup (now - s.keepAlive) t1 else s).keepAlive = s.keepAlive ∧
      ∀ x ∈ (if now ≥ s.cleanupTime then s.cleanup (now - s.keepAlive) t1 else s).sessions, now - 2 * s.keepAlive - δ ≤ x.2.1 := by
    split
    · have hm : ∀ x ∈ (s.cleanup (now - s.keepAlive) t1).sessions, x ∈ s.sessions ∧ now - s.keepAlive ≤ x.2.1 := by
        intro x hx
        obtain ⟨a, b⟩ := List.mem_filter.1 hx
        exact ⟨a, by simpa using b⟩
      refine ⟨⟨fun x hx => h.uses x (hm x hx).1, ?_, ?_, ?_⟩, rfl, ?_⟩
      · exact h.nodup.sublist (List.Sublist.map _ List.filter_sublist)
      · intro x hx
        have := (hm x hx).2
        show t1 + (s.keepAlive : Int) - 2 * s.keepAlive - δ ≤ x.2.1
        omega
      · show t1 + (s.keepAlive : Int) - s.keepAlive ≤ t1
        omega
      · intro x hx
        have := (hm x hx).2
        omega
    · rename_i hlt
      refine ⟨⟨h.uses, h.nodup, h.recent, by have := h.clock; omega⟩, rfl, ?_⟩
      intro x hx
      have := h.recent x hx
      omega
  unfold Sessions.get
  dsimp only
  generalize (if now ≥ s.cleanupTime then s.cleanup (now - s.keepAlive) t1 else s) = s1 at hk ⊢
  obtain ⟨hk, hke, hr⟩ := hk
  have hc := hk.clock
  split
  · rename_i last d hl
    split
    · refine ⟨hke, ⟨?_, ?_, ?_, ?_⟩, ?_⟩
      · intro x hx; exact List.mem_append_left _ (hk.uses x (List.mem_filter.1 hx).1)
      · exact hk.nodup.sublist (List.Sublist.map _ List.filter_sublist)
      · intro x hx; exact hk.recent x (List.mem_filter.1 hx).1
      · dsimp only; omega
      · intro x hx; exact hr x (List.mem_filter.1 hx).1
    · have hm : ∀ x ∈ s1.sessions.map (fun x => if x.1 = id then (id, t2, x.2.2) else x), (∃ y, x = (id, t2, y)) ∨ x ∈ s1.sessions := by
        intro x hx
        obtain ⟨y, hy, rfl⟩ := List.mem_map.1 hx
        split
        · exact .inl ⟨_, rfl⟩
        · exact .inr hy
      refine ⟨hke, ⟨?_, ?_, ?_, ?_⟩, ?_⟩
      · intro x hx
        rcases hm x hx with ⟨y, rfl⟩ | hx
        · exact List.mem_append_right _ (by simp [useOf])
        · exact List.mem_append_left _ (hk.uses x hx)
      · have : (s1.sessions.map (fun x => if x.1 = id then (id, t2, x.2.2) else x)).map Prod.fst = s1.sessions.map Prod.fst := by
          rw [List.map_map]
          refine List.map_congr_left fun x _ => ?_
          simp only [Function.comp]
          split
          · rename_i hx; exact hx.symm
          · rfl
        dsimp only
        rw [this]; exact hk.nodup
      · intro x hx
        rcases hm x hx with ⟨y, rfl⟩ | hx
        · dsimp only; omega
        · exact hk.recent x hx
      · dsimp only; omega
      · intro x hx
        rcases hm x hx with ⟨y, rfl⟩ | hx
        · dsimp only; omega
        · exact hr x hx
  · refine ⟨hke, ⟨?_, hk.nodup, hk.recent, (by show s1.cleanupTime - s1.keepAlive ≤ t2; omega)⟩, hr⟩
    intro x hx
    exact List.mem_append_left _ (hk.uses x hx)

theorem sessionRun_append {T} : ∀ (cs cs' : List (SessionCall T)) (s s' : Sessions T) (es), sessionRun s (cs ++ cs') = .ok (s', es) →
    ∃ s1 es1 es2, sessionRun s cs = .ok (s1, es1) ∧ sessionRun s1 cs' = .ok (s', es2) ∧ es = es1 ++ es2 := by
  intro cs
  induction cs with
  | nil => intro cs' s s' es e; exact ⟨s, [], es, rfl, e, rfl⟩
  | cons c cs ih =>
    intro cs' s s' es e
    cases c with
    | generate d draws =>
      simp only [List.cons_append, sessionRun] at e ⊢
      obtain ⟨r, e1, e⟩ := Res.bind_eq_ok.1 e
      obtain ⟨⟨s2, es2⟩, e2, e⟩ := Res.bind_eq_ok.1 e
      cases e
      obtain ⟨s3, es3, es4, f1, f2, rfl⟩ := ih cs' _ _ _ e2
      exact ⟨s3, _, es4, by rw [e1]; simp only [Res.ok_bind, f1]; rfl, f2, rfl⟩
    | get id now t1 t2 =>
      simp only [List.cons_append, sessionRun] at e ⊢
      obtain ⟨⟨s2, es2⟩, e2, e⟩ := Res.bind_eq_ok.1 e
      cases e
      obtain ⟨s3, es3, es4, f1, f2, rfl⟩ := ih cs' _ _ _ e2
      exact ⟨s3, _, es4, by simp only [f1, Res.ok_bind]; rfl, f2, rfl⟩
    | erase id =>
      simp only [List.cons_append, sessionRun] at e ⊢
      obtain ⟨⟨s2, es2⟩, e2, e⟩ := Res.bind_eq_ok.1 e
      cases e
      obtain ⟨s3, es3, es4, f1, f2, rfl⟩ := ih cs' _ _ _ e2
      exact ⟨s3, _, es4, by simp only [f1, Res.ok_bind]; rfl, f2, rfl⟩

/-- The clock moves by at most `δ` seconds during the cleanup of any `get`. -/
def SwiftCleanup {T} (δ : Nat) (calls : List (SessionCall T)) : Prop :=
  ∀ (id : Bytes) (now t1 t2 : Int), SessionCall.get id now t1 t2 ∈ calls → t1 ≤ now + δ

theorem run_kept {T} {δ : Nat} : ∀ (cs : List (SessionCall T)) (s s' : Sessions T) (es us) (c : Int), Kept δ s us c →
    (c :: cs.flatMap clockReadings).Pairwise (· ≤ ·) → SwiftCleanup δ cs → sessionRun s cs = .ok (s', es) →
    s'.keepAlive = s.keepAlive ∧ ∃ c', Kept δ s' (us ++ es.filterMap useOf) c' ∧ c' ∈ c :: cs.flatMap clockReadings := by
  intro cs
  induction cs with
  | nil => intro s s' es us c h _ _ e; cases e; exact ⟨rfl, c, by simpa using h, by simp⟩
  | cons call cs ih =>
    intro s s' es us c h hm hd e
    have hd' : SwiftCleanup δ cs := fun id now t1 t2 hx => hd id now t1 t2 (by simp [hx])
    rw [List.flatMap_cons] at hm ⊢
    have next : ∀ c2, c2 ∈ c :: clockReadings call → (c2 :: cs.flatMap clockReadings).Pairwise (· ≤ ·) := by
      intro c2 h2
      rw [← List.cons_append, List.pairwise_append] at hm
      exact List.pairwise_cons.2 ⟨fun a ha => hm.2.2 c2 h2 a ha, hm.2.1⟩
    have memb : ∀ c2 c3, c2 ∈ c :: clockReadings call → c3 ∈ c2 :: cs.flatMap clockReadings → c3 ∈ c :: (clockReadings call ++ cs.flatMap clockReadings) := by
      intro c2 c3 h2 h3
      rw [← List.cons_append, List.mem_append]
      rcases List.mem_cons.1 h3 with rfl | h3
      · exact .inl h2
      · exact .inr h3
    cases call with
    | generate d draws =>
      simp only [sessionRun] at e
      obtain ⟨⟨s1, x⟩, e1, e⟩ := Res.bind_eq_ok.1 e
      obtain ⟨⟨s2, es2⟩, e2, e⟩ := Res.bind_eq_ok.1 e
      cases e
      obtain ⟨k1, k2, k3⟩ := kept_generate d draws s s1 x h (by
        rw [← List.cons_append, List.pairwise_append] at hm; exact hm.1) e1
      obtain ⟨m1, c', m2, m3⟩ := ih s1 _ _ _ _ k3 (next _ k2) hd' e2
      refine ⟨m1.trans k1, c', ?_, memb _ _ k2 m3⟩
      simpa [useOf, List.append_assoc] using m2
    | get id now t1 t2 =>
      simp only [sessionRun] at e
      obtain ⟨⟨s2, es2⟩, e2, e⟩ := Res.bind_eq_ok.1 e
      cases e
      have hm' := hm
      simp only [clockReadings, List.cons_append, List.nil_append, List.pairwise_cons] at hm'
      obtain ⟨p1, p2, p3, _⟩ := hm'
      obtain ⟨k1, k2, _⟩ := kept_get h id now t1 t2 (p1 now (by simp)) (p2 t1 (by simp)) (p3 t2 (by simp)) (hd id now t1 t2 (by simp))
      obtain ⟨m1, c', m2, m3⟩ := ih _ _ _ _ _ k2 (next t2 (by simp [clockReadings])) hd' e2
      refine ⟨m1.trans k1, c', ?_, memb t2 _ (by simp [clockReadings]) m3⟩
      rw [List.append_assoc] at m2
      rw [List.filterMap_cons]
      cases hu : useOf (.got id now t2 (s.get id now t1 t2).2) with
      | none => rw [hu] at m2; simpa using m2
      | some u => rw [hu] at m2; simpa using m2
    | erase id =>
      simp only [sessionRun] at e
      obtain ⟨⟨s2, es2⟩, e2, e⟩ := Res.bind_eq_ok.1 e
      cases e
      have k : Kept δ (s.erase id) us c := ⟨fun x hx => h.uses x (List.mem_filter.1 hx).1,
        h.nodup.sublist (List.Sublist.map _ List.filter_sublist), fun x hx => h.recent x (List.mem_filter.1 hx).1, h.clock⟩
      obtain ⟨m1, c', m2, m3⟩ := ih _ _ _ _ _ k (next c (by simp)) hd' e2
      exact ⟨m1, c', m2, memb c _ (by simp) m3⟩

/-- **C134** After every `get` the store holds no more sessions than have been used in the last two keep-alive periods (and the time a cleanup takes).
Missing: a program that only generates sessions (`C134_generate_violated`). -/
theorem C134_partial {T} (keepAlive δ : Nat) (t0 : Int) (calls : List (SessionCall T)) (id : Bytes) (now t1 t2 : Int)
    (clock : (t0 :: (calls ++ [SessionCall.get id now t1 t2]).flatMap clockReadings).Pairwise (· ≤ ·)) (swift : SwiftCleanup δ (calls ++ [SessionCall.get id now t1 t2])) {s events}
    (h : sessionRun (newSessions keepAlive t0) (calls ++ [SessionCall.get id now t1 t2]) = .ok (s, events)) :
    s.size ≤ (usesSince (now - 2 * keepAlive - δ) events).length := by
  obtain ⟨s1, es1, es2, f1, f2, rfl⟩ := sessionRun_append calls _ _ _ _ h
  have k0 : Kept δ (newSessions keepAlive t0 : Sessions T) [] t0 := ⟨(fun x hx => by cases hx), List.nodup_nil, (fun x hx => by cases hx),
    (show t0 + (keepAlive : Int) - keepAlive ≤ t0 by omega)⟩
  rw [List.flatMap_append, ← List.cons_append, List.pairwise_append] at clock
  obtain ⟨c1, c2, c3⟩ := clock
  obtain ⟨m1, c', m2, m3⟩ := run_kept calls _ s1 es1 [] t0 k0 c1 (fun a b c d hx => swift a b c d (by simp [hx])) f1
  simp only [List.flatMap_cons, clockReadings, List.flatMap_nil, List.append_nil, List.pairwise_cons] at c2 c3
  obtain ⟨k1, k2, k3⟩ := kept_get m2 id now t1 t2 (c3 c' m3 now (by simp)) (c2.1 t1 (by simp)) (c2.2.1 t2 (by simp)) (swift id now t1 t2 (by simp))
  simp only [sessionRun, Res.ok_bind, Res.pure_eq] at f2
  injection f2 with f2
  injection f2 with f2 f3
  subst f2; subst f3
  unfold Sessions.size
  rw [← List.length_map (f := Prod.fst)]
  refine distinct_length k2.nodup fun i hi => ?_
  obtain ⟨x, hx, rfl⟩ := List.mem_map.1 hi
  refine usesSince_mem (t := x.2.1) ?_ ?_
  · have := k2.uses x hx
    rw [List.nil_append] at this
    rw [List.filterMap_append]
    rcases List.mem_append.1 this with c | c
    · exact List.mem_append_left _ c
    · refine List.mem_append_right _ ?_
      rw [List.filterMap_cons]
      cases hu : useOf (.got id now t2 (s1.get id now t1 t2).2) with
      | none => rw [hu] at c; simp at c
      | some u => rw [hu] at c; simpa using c
  · have := k3 x hx
    rw [m1] at this
    exact this

/-- **C134 fails** without `get`: whatever the times, sessions that are only generated are all kept. -/
theorem C134_generate_violated {T} (keepAlive : Nat) (t0 : Int) (d : T) (draws : List (Bytes × Int)) (hn : (draws.map Prod.fst).Nodup) :
    ∃ s events, sessionRun (newSessions keepAlive t0) (draws.map fun p => .generate d [p]) = .ok (s, events) ∧ s.size = draws.length := by
  have key : ∀ (draws : List (Bytes × Int)) (s : Sessions T), (draws.map Prod.fst).Nodup → (∀ p ∈ draws, p.1 ∉ s.sessions.map Prod.fst) →
      ∃ s' events, sessionRun s (draws.map fun p => .generate d [p]) = .ok (s', events) ∧ s'.size = s.size + draws.length := by
    intro draws
    induction draws with
    | nil => intro s _ _; exact ⟨s, [], rfl, rfl⟩
    | cons p draws ih =>
      intro s hn hs
      obtain ⟨i, now⟩ := p
      simp only [List.map_cons, List.nodup_cons] at hn
      have hno : ¬ (s.sessions.lookup i).isSome := by
        intro hh
        obtain ⟨v, hv⟩ := Option.isSome_iff_exists.1 hh
        refine hs (i, now) (by simp) ?_
        have : ∀ l : List (Bytes × Int × T), l.lookup i = some v → i ∈ l.map Prod.fst := by
          intro l
          induction l with
          | nil => intro h; cases h
          | cons q l ih =>
            obtain ⟨k, w⟩ := q
            intro h
            rw [List.lookup_cons] at h
            split at h
            · rename_i hk; have : i = k := by simpa using hk
              simp [this]
            · simp only [List.map_cons, List.mem_cons]; exact .inr (ih h)
        exact this _ hv
      obtain ⟨s', ev, e1, e2⟩ := ih { s with sessions := (i, now, d) :: s.sessions } hn.2 (by
        intro q hq
        simp only [List.map_cons, List.mem_cons, not_or]
        refine ⟨?_, hs q (by simp [hq])⟩
        intro hqi
        exact hn.1 (List.mem_map.2 ⟨q, hq, hqi⟩))
      refine ⟨s', .generated i d now :: ev, ?_, ?_⟩
      · simp only [List.map_cons, sessionRun, Sessions.generate]
        rw [if_neg hno]
        simp only [Res.ok_bind, e1]
        rfl
      · rw [e2]; simp only [Sessions.size, List.length_cons]; omega
  obtain ⟨s, ev, e1, e2⟩ := key draws (newSessions keepAlive t0) hn (by intro p _ h; cases h)
  exact ⟨s, ev, e1, by rw [e2]; show 0 + _ = _; omega⟩

/-- Three sessions, one of them used again: at time 275 only that one is left. -/
def C134_demo : List (SessionCall Nat) :=
  [.generate 1 [([1], 0)], .generate 2 [([2], 5)], .generate 3 [([3], 10)], .get [2] 90 90 90, .get [2] 170 170 170, .get [2] 260 260 260, .get [7] 275 275 275]
example : (0 :: C134_demo.flatMap clockReadings).Pairwise (· ≤ ·) := by decide
example : SwiftCleanup 0 C134_demo := by
  intro id now t1 t2 h
  simp [C134_demo] at h
  omega
example : (match sessionRun (newSessions 100 0) C134_demo with
    | .ok (s, es) => (s.size, (usesSince (275 - 200) es).length) | _ => (9, 9)) = (1, 3) := by decide

end Fcgi.Props
