import Verif.Model.Session
import Verif.Spec.Session
import Verif.Lemmas.Base64
import Verif.Spec.SessionTerms
namespace Fcgi.Model
open Fcgi Fcgi.Spec

theorem lookup_filter_key {β} (l : List (Bytes × β)) (id i : Bytes) :
    (l.filter (fun x => x.1 ≠ id)).lookup i = if i = id then none else l.lookup i := by
  induction l with
  | nil => simp
  | cons x l ih =>
    obtain ⟨k, v⟩ := x
    simp only [List.filter_cons]
    by_cases hk : k = id
    · subst hk
      simp only [ne_eq, not_true_eq_false, decide_false, Bool.false_eq_true, if_false]
      simp only [ne_eq] at ih
      rw [ih]
      by_cases hi : i = k
      · simp [hi]
      · rw [if_neg hi, if_neg hi, List.lookup_cons, show (i == k) = false by simpa using hi]
    · rw [if_pos (by simpa using hk), List.lookup_cons, List.lookup_cons, ih]
      by_cases hi : i = k
      · subst hi; simp [hk]
      · rw [show (i == k) = false by simpa using hi]

theorem lookup_map_key {T} (l : List (Bytes × Int × T)) (id i : Bytes) (t : Int) :
    (l.map (fun x => if x.1 = id then (id, t, x.2.2) else x)).lookup i =
      if i = id then (l.lookup id).map (fun v => (t, v.2)) else l.lookup i := by
  induction l with
  | nil => simp
  | cons x l ih =>
    obtain ⟨k, v⟩ := x
    simp only [List.map_cons]
    by_cases hk : k = id
    · subst hk
      simp only [if_true]
      rw [List.lookup_cons, ih]
      by_cases hi : i = k
      · subst hi; simp
      · rw [show (i == k) = false by simpa using hi, if_neg hi, if_neg hi, List.lookup_cons, show (i == k) = false by simpa using hi]
    · rw [if_neg hk, List.lookup_cons, ih]
      by_cases hi : i = k
      · subst hi; simp [hk]
      · rw [show (i == k) = false by simpa using hi, List.lookup_cons, show (id == k) = false by simp; exact fun e => hk e.symm,
          List.lookup_cons, show (i == k) = false by simpa using hi]

theorem lookup_filter_val {T} (l : List (Bytes × Int × T)) (oldest : Int) (hn : (l.map Prod.fst).Nodup) (i : Bytes) :
    (l.filter (fun x => ¬ x.2.1 < oldest)).lookup i = (l.lookup i).filter (fun v => ¬ v.1 < oldest) := by
  induction l with
  | nil => simp
  | cons x l ih =>
    obtain ⟨k, v⟩ := x
    simp only [List.map_cons, List.nodup_cons] at hn
    have ih := ih hn.2
    simp only [List.filter_cons]
    by_cases hv : v.1 < oldest
    · rw [if_neg (by simpa using hv), ih, List.lookup_cons]
      by_cases hi : i = k
      · subst hi
        have : l.lookup i = none := by
          rw [List.lookup_eq_none_iff]
          intro p hp
          have : i ≠ p.1 := fun e => hn.1 (List.mem_map.2 ⟨p, hp, e.symm⟩)
          simpa using this
        rw [this]
        simp only [beq_self_eq_true, Option.filter]
        rw [if_neg (by simpa using hv)]
      · rw [show (i == k) = false by simpa using hi]
    · rw [if_pos (by simpa using hv), List.lookup_cons, List.lookup_cons, ih]
      by_cases hi : i = k
      · subst hi
        simp only [beq_self_eq_true, Option.filter]
        rw [if_pos (by simpa using hv)]
      · rw [show (i == k) = false by simpa using hi]

/-- The store agrees with the ledger at time `clock`: what it holds is right, and what it has dropped is
expired. -/
structure Agrees {T} (s : Sessions T) (l : Ledger T) (clock : Int) : Prop where
  nodup : (s.sessions.map Prod.fst).Nodup
  holds : ∀ id last d, s.sessions.lookup id = some (last, d) → l id = some (d, last)
  dropped : ∀ id last d, l id = some (d, last) → s.sessions.lookup id = none → last < clock - s.keepAlive

theorem Agrees.later {T} {s : Sessions T} {l : Ledger T} {c c' : Int} (h : Agrees s l c) (hc : c ≤ c') : Agrees s l c' :=
  ⟨h.nodup, h.holds, fun id last d h1 h2 => by have := h.dropped id last d h1 h2; omega⟩

theorem filter_keys_nodup {β} (l : List (Bytes × β)) (p) (h : (l.map Prod.fst).Nodup) : ((l.filter p).map Prod.fst).Nodup :=
  List.Nodup.sublist (List.Sublist.map _ List.filter_sublist) h

theorem generate_spec {T} (d : T) : ∀ (draws : List (Bytes × Int)) (s s' : Sessions T) (x : SessionId) (l : Ledger T) (c : Int),
    Agrees s l c → (∀ p ∈ draws, c ≤ p.2) → s.generate d draws = .ok (s', x) →
    (x.data, x.timestamp) ∈ draws ∧ l.live s.keepAlive x.data x.timestamp = none ∧ s'.keepAlive = s.keepAlive ∧
      Agrees s' (l.set x.data (some (d, x.timestamp))) c := by
  intro draws
  induction draws with
  | nil => intro s s' x l c _ _ e; simp [Sessions.generate] at e
  | cons p draws ih =>
    intro s s' x l c h hc e
    obtain ⟨id, now⟩ := p
    simp only [Sessions.generate] at e
    split at e
    · obtain ⟨h1, h2⟩ := ih s s' x l c h (fun p hp => hc p (by simp [hp])) e
      exact ⟨by simp [h1], h2⟩
    · next hn =>
      cases e
      have hnone : s.sessions.lookup id = none := by
        cases hh : s.sessions.lookup id with
        | none => rfl
        | some v => rw [hh] at hn; simp at hn
      have hnow : c ≤ now := hc (id, now) (by simp)
      refine ⟨by simp, ?_, rfl, ?_, ?_, ?_⟩
      · simp only [Ledger.live]
        split
        · next d' last hl =>
          have := h.dropped id last d' hl hnone
          rw [if_neg (by omega)]
        · rfl
      · simp only [List.map_cons, List.nodup_cons]
        refine ⟨?_, h.nodup⟩
        intro hm
        obtain ⟨p, hp, rfl⟩ := List.mem_map.1 hm
        rw [List.lookup_eq_none_iff] at hnone
        simpa using hnone p hp
      · intro i last d' hl
        simp only [List.lookup_cons] at hl
        by_cases hi : i = id
        · subst hi
          simp only [beq_self_eq_true] at hl
          cases hl
          simp [Ledger.set]
        · rw [show (i == id) = false by simpa using hi] at hl
          simp only [Ledger.set, if_neg hi]
          exact h.holds i last d' hl
      · intro i last d' hl hnl
        simp only [List.lookup_cons] at hnl
        by_cases hi : i = id
        · subst hi; simp at hnl
        · rw [show (i == id) = false by simpa using hi] at hnl
          simp only [Ledger.set, if_neg hi] at hl
          exact h.dropped i last d' hl hnl

theorem cleanup_spec {T} (s : Sessions T) (l : Ledger T) (c now t1 : Int) (h : Agrees s l c) (hc : c ≤ now) :
    Agrees (s.cleanup (now - s.keepAlive) t1) l now := by
  have hl : ∀ i, (s.cleanup (now - s.keepAlive) t1).sessions.lookup i = (s.sessions.lookup i).filter (fun v => ¬ v.1 < now - s.keepAlive) :=
    fun i => lookup_filter_val s.sessions _ h.nodup i
  refine ⟨filter_keys_nodup _ _ h.nodup, ?_, ?_⟩
  · intro i last d e
    rw [hl] at e
    obtain ⟨e1, _⟩ := Option.filter_eq_some_iff.1 e
    exact h.holds i last d e1
  · intro i last d e1 e2
    rw [hl, Option.filter_eq_none_iff] at e2
    cases hs : s.sessions.lookup i with
    | none => have := h.dropped i last d e1 hs; show last < now - s.keepAlive; omega
    | some v =>
      have := e2 v hs
      obtain ⟨v1, v2⟩ := v
      have e3 := h.holds i v1 v2 hs
      rw [e1] at e3
      cases e3
      show last < now - s.keepAlive
      simpa using this

theorem get_spec {T} (s : Sessions T) (l : Ledger T) (c : Int) (id : Bytes) (now t1 t2 : Int) (h : Agrees s l c) (hc : c ≤ now) :
    (s.get id now t1 t2).2 = l.live s.keepAlive id now ∧ (s.get id now t1 t2).1.keepAlive = s.keepAlive ∧
      Agrees (s.get id now t1 t2).1 (match (s.get id now t1 t2).2 with | some d => l.set id (some (d, t2)) | none => l) now := by
  obtain ⟨s1, hs1⟩ : ∃ s1, s1 = if now ≥ s.cleanupTime then s.cleanup (now - s.keepAlive) t1 else s := ⟨_, rfl⟩
  have h1 : Agrees s1 l now ∧ s1.keepAlive = s.keepAlive := by
    rw [hs1]
    split
    · exact ⟨cleanup_spec s l c now t1 h hc, rfl⟩
    · exact ⟨h.later hc, rfl⟩
  obtain ⟨ha, hk⟩ := h1
  unfold Sessions.get
  simp only [← hs1]
  cases hl : s1.sessions.lookup id with
  | none =>
    refine ⟨?_, hk, ha⟩
    simp only [Ledger.live]
    split
    · next d last e =>
      have := ha.dropped id last d e hl
      rw [if_neg (by omega)]
    · rfl
  | some v =>
    obtain ⟨last, d⟩ := v
    have e := ha.holds id last d hl
    simp only
    by_cases hx : last < now - s.keepAlive
    · rw [if_pos hx]
      refine ⟨?_, hk, filter_keys_nodup _ _ ha.nodup, ?_, ?_⟩
      · simp only [Ledger.live, e]; rw [if_neg (by omega)]
      · intro i last' d' e'
        rw [lookup_filter_key] at e'
        split at e'
        · cases e'
        · exact ha.holds i last' d' e'
      · intro i last' d' e1 e2
        rw [lookup_filter_key] at e2
        split at e2
        · next hi =>
          subst hi
          have e1' : l i = some (d', last') := e1
          rw [e] at e1'; cases e1'; show last < now - s1.keepAlive; omega
        · exact ha.dropped i last' d' e1 e2
    · rw [if_neg hx]
      refine ⟨?_, hk, ?_, ?_, ?_⟩
      · simp only [Ledger.live, e]; rw [if_pos (by omega)]
      · have : (s1.sessions.map (fun x => if x.1 = id then (id, t2, x.2.2) else x)).map Prod.fst = s1.sessions.map Prod.fst := by
          rw [List.map_map]
          apply List.map_congr_left
          intro x _
          simp only [Function.comp]
          split
          · next hx => exact hx.symm
          · rfl
        rw [this]; exact ha.nodup
      · intro i last' d' e'
        rw [lookup_map_key] at e'
        simp only [Ledger.set]
        split at e'
        · next hi =>
          rw [if_pos hi]
          rw [hl] at e'
          simp at e'
          simp [e']
        · next hi => rw [if_neg hi]; exact ha.holds i last' d' e'
      · intro i last' d' e1 e2
        rw [lookup_map_key] at e2
        simp only [Ledger.set] at e1
        split at e2
        · rw [hl] at e2; simp at e2
        · next hi => rw [if_neg hi] at e1; exact ha.dropped i last' d' e1 e2

theorem erase_spec {T} (s : Sessions T) (l : Ledger T) (c : Int) (id : Bytes) (h : Agrees s l c) :
    Agrees (s.erase id) (l.set id none) c := by
  refine ⟨filter_keys_nodup _ _ h.nodup, ?_, ?_⟩
  · intro i last d e
    unfold Sessions.erase at e
    rw [lookup_filter_key] at e
    split at e
    · cases e
    · next hi => simp only [Ledger.set, if_neg hi]; exact h.holds i last d e
  · intro i last d e1 e2
    unfold Sessions.erase at e2
    simp only [Ledger.set] at e1
    split at e1
    · cases e1
    · next hi =>
      rw [lookup_filter_key, if_neg hi] at e2
      exact h.dropped i last d e1 e2

/-! ### histories -/

theorem run_faithful {T} : ∀ (cs : List (SessionCall T)) (s s' : Sessions T) (es) (l : Ledger T) (c : Int), Agrees s l c →
    (c :: cs.flatMap clockReadings).Pairwise (· ≤ ·) → sessionRun s cs = .ok (s', es) → Faithful s.keepAlive l es := by
  intro cs
  induction cs with
  | nil => intro s s' es l c _ _ e; simp [sessionRun] at e; obtain ⟨rfl, rfl⟩ := e; trivial
  | cons call cs ih =>
    intro s s' es l c h hm e
    cases call with
    | generate d draws =>
      simp only [sessionRun] at e
      obtain ⟨⟨s1, x⟩, e1, e⟩ := Res.bind_eq_ok.1 e
      obtain ⟨⟨s2, es2⟩, e2, e⟩ := Res.bind_eq_ok.1 e
      cases e
      simp only [List.flatMap_cons, clockReadings, List.pairwise_cons] at hm
      have hm2 := List.pairwise_append.1 hm.2
      obtain ⟨g1, g2, g3, g4⟩ := generate_spec d draws s s1 x l c h (fun p hp => hm.1 _ (by simp; left; exact ⟨p.1, hp⟩)) e1
      refine ⟨g2, ?_⟩
      have := ih s1 s2 es2 _ c g4 (by
        rw [List.pairwise_cons]
        exact ⟨fun a ha => hm.1 a (by simp only [List.mem_append]; exact Or.inr ha), hm2.2.1⟩) e2
      rw [g3] at this
      exact this
    | get id now t1 t2 =>
      simp only [sessionRun] at e
      obtain ⟨⟨s2, es2⟩, e2, e⟩ := Res.bind_eq_ok.1 e
      cases e
      simp only [List.flatMap_cons, clockReadings, List.cons_append, List.nil_append, List.pairwise_cons] at hm
      obtain ⟨g1, g2, g3⟩ := get_spec s l c id now t1 t2 h (hm.1 now (by simp))
      refine ⟨g1, ?_⟩
      have := ih _ s2 es2 _ now g3 (by
        rw [List.pairwise_cons]
        exact ⟨fun a ha => hm.2.1 a (by simp [ha]), hm.2.2.2.2⟩) e2
      rw [g2] at this
      exact this
    | erase id =>
      simp only [sessionRun] at e
      obtain ⟨⟨s2, es2⟩, e2, e⟩ := Res.bind_eq_ok.1 e
      cases e
      exact ih (s.erase id) s2 es2 _ c (erase_spec s l c id h) (by simpa [clockReadings] using hm) e2

end Fcgi.Model
