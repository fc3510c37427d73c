import Verif.Lemmas.RequestMore
import Verif.Spec.RequestTerms
namespace Fcgi.Model
open Fcgi Fcgi.Spec

/-! ### unique decoding of pairs -/

theorem encPair_unique {nv nv' : Bytes × Bytes} {b b' r r' : Bytes} (h : EncPair nv b) (h' : EncPair nv' b')
    (e : b ++ r = b' ++ r') : nv = nv' ∧ b = b' ∧ r = r' := by
  obtain ⟨n, v, h1, h2, h3⟩ := processParamHeader_complete [] b r nv h
  obtain ⟨n', v', h1', h2', h3'⟩ := processParamHeader_complete [] b' r' nv' h'
  rw [e] at h1 h2 h3
  rw [h1] at h1'
  simp only [Res.ok.injEq, Option.some.injEq, Prod.mk.injEq, List.nil_append] at h1'
  obtain ⟨rfl, rfl, hl⟩ := h1'
  obtain ⟨rfl, rfl⟩ := List.append_inj e hl
  exact ⟨Prod.ext (h2.symm.trans h2') (h3.symm.trans h3'), rfl, rfl⟩

theorem items_unique : ∀ (xs ys : List ((Bytes × Bytes) × Bytes)), (∀ i ∈ xs, EncPair i.1 i.2) → (∀ i ∈ ys, EncPair i.1 i.2) →
    xs.flatMap Prod.snd = ys.flatMap Prod.snd → xs = ys := by
  intro xs
  induction xs with
  | nil =>
    intro ys _ hy e
    cases ys with
    | nil => rfl
    | cons y ys =>
      have := (hy y (by simp)).length_pos
      have e := congrArg List.length e
      simp only [List.flatMap_nil, List.flatMap_cons, List.length_append, List.length_nil] at e
      omega
  | cons x xs ih =>
    intro ys hx hy e
    cases ys with
    | nil =>
      have := (hx x (by simp)).length_pos
      have e := congrArg List.length e
      simp only [List.flatMap_nil, List.flatMap_cons, List.length_append, List.length_nil] at e
      omega
    | cons y ys =>
      simp only [List.flatMap_cons] at e
      obtain ⟨e1, e2, e3⟩ := encPair_unique (hx x (by simp)) (hy y (by simp)) e
      rw [ih ys (fun i hi => hx i (by simp [hi])) (fun i hi => hy i (by simp [hi])) e3]
      congr 1
      exact Prod.ext e1 e2

/-- A proper beginning of an encoded pair holds no whole pair. -/
theorem encPair_cut {nv : Bytes × Bytes} {a b : Bytes} (h : EncPair nv (a ++ b)) (hb : b ≠ []) :
    ¬ ∃ nv' enc rest, EncPair nv' enc ∧ a = enc ++ rest := by
  rintro ⟨nv', enc, rest, h', rfl⟩
  have := encPair_unique (r := []) (r' := rest ++ b) h h' (by simp)
  have e := congrArg List.length this.2.2
  have := List.length_pos_iff.2 hb
  simp only [List.length_append, List.length_nil] at e
  omega

theorem fill_cut {nv : Bytes × Bytes} {a b : Bytes} (h : EncPair nv (a ++ b)) (hb : b ≠ []) (pre tail : Bytes) (env : Env) :
    fill (pre ++ a ++ tail) pre.length (pre ++ a).length env = .ok env := by
  unfold fill
  simp only [fillLoop]
  rw [List.take_left]
  obtain ⟨o, ho⟩ := processParamHeader_safe (pre ++ a) pre.length
  rw [ho]
  cases o with
  | none => rfl
  | some x =>
    obtain ⟨n, v, e⟩ := x
    obtain ⟨nv', enc, rest, hp, hr, _⟩ := processParamHeader_sound _ _ _ _ _ ho
    exact absurd ⟨nv', enc, rest, hp, hr⟩ (encPair_cut h hb)

theorem flatMap_flatMap_snd (ps : List (Record × List ((Bytes × Bytes) × Bytes))) (h : ∀ p ∈ ps, WholePairs p.1 p.2) :
    (ps.flatMap Prod.snd).flatMap Prod.snd = ps.flatMap (fun p => p.1.content) := by
  induction ps with
  | nil => rfl
  | cons p ps ih =>
    rw [List.flatMap_cons, List.flatMap_append, List.flatMap_cons, ih (fun q hq => h q (by simp [hq])), (h p (by simp)).content]

/-- Continuing a run by one message. -/
theorem handler_snoc {U} (hd : Handlers U) (g) (r r' : Req U) (ms : List Message) (m : Message)
    (e : handler hd g r ms = .ok (r', [], false)) :
    handler hd g r (ms ++ [m]) = (handleMsg hd g r' m >>= fun x => .ok (x.1, [], x.2)) := by
  rw [handler_append, e]
  simp only [Res.ok_bind, Bool.false_eq_true, if_false, handler]
  cases handleMsg hd g r' m with
  | ok x => cases hx : x.2 <;> simp [hx]
  | ub k => rfl
  | stuck => rfl

theorem handleMsg_total {U} (hd : Handlers U) (g) (r : Req U) (h : Alive r) (i : Input) (hw : i.WF) (hp : ParamsOk i) (p : Phase)
    (hs : r.state = phaseCode p) : ∃ x, handleMsg hd g r i.message = .ok x := by
  cases i with
  | callback t d =>
    obtain ⟨r1, a1, _⟩ := respond_spec hd g r h ⟨t, d⟩
    exact ⟨_, (handleMsg_callback hd g r ⟨t, d⟩ hw).trans a1⟩
  | record x =>
    rcases record_outcome hd g r h x hw p hs with
      ⟨_, r1, h1, _⟩ | ⟨_, _, r1, h1, _⟩ | ⟨_, _, _, r1, h1, _⟩ | ⟨_, _, _, _, _, r1, h1, _⟩ |
      ⟨_, _, _, _, _, h1⟩ | ⟨hpp, ht, hr, h0, h1⟩ | ⟨_, _, h0, h1⟩ | ⟨_, _, _, _, r1, h1, _⟩ | ⟨_, _, _, _, r1, h1, _⟩
    · exact ⟨_, h1⟩
    · exact ⟨_, h1⟩
    · exact ⟨_, h1⟩
    · exact ⟨_, h1⟩
    · exact ⟨_, h1⟩
    · obtain ⟨items, hi⟩ := hp x rfl ht h0
      subst hpp
      obtain ⟨env, _, e⟩ := handle_params hd g r h hs hr x items hi
      exact ⟨_, e⟩
    · obtain ⟨a, p, _, _, r1, fin, f1, _⟩ := inputEnd_spec hd g r h (fcgiMsg x)
      exact ⟨_, h1.trans f1⟩
    · exact ⟨_, h1⟩
    · exact ⟨_, h1⟩

theorem handler_total {U} (hd : Handlers U) (g) (r0 : Req U) : ∀ (ins done : List Input) (r : Req U), GInv r0 done r →
    (∀ i ∈ ins, i.WF) → (∀ i ∈ ins, ParamsOk i) → ∃ x, handler hd g r (ins.map Input.message) = .ok x := by
  intro ins
  induction ins with
  | nil => intro done r _ _ _; exact ⟨_, rfl⟩
  | cons i ins ih =>
    intro done r h hw hp
    obtain ⟨⟨r1, fin⟩, e⟩ := handleMsg_total hd g r h.alive i (hw i (by simp)) (hp i (by simp)) _ h.phase
    have s := step_g hd g r0 done i r r1 fin (hw i (by simp)) h e
    simp only [List.map_cons, handler, e, Res.ok_bind]
    cases fin with
    | true => exact ⟨_, rfl⟩
    | false => exact ih _ _ (s.1 rfl) (fun j hj => hw j (by simp [hj])) (fun j hj => hp j (by simp [hj]))

/-! ### END_REQUEST -/

theorem endRequestRecord_spec (g : Nat → UInt8) (id : UInt16) (status : UInt8) :
    IsEndRequest id.toNat status (endRequestRecord g id status) := by
  refine ⟨⟨1, 3, id.toNat, to32 0 ++ [status, g 13, g 14, g 15], [], g 7⟩, rfl, rfl, rfl, ?_, ?_, rfl, ?_⟩
  · rfl
  · rfl
  · have h16 : ∀ v : UInt16, beDigits 2 v.toNat = to16 v := by
      intro v; rw [to16_eq, beDigits2]; simp
    simp only [Record.bytes, endRequestRecord, headerBytes]
    rw [h16, show beDigits 2 (to32 0 ++ [status, g 13, g 14, g 15]).length = to16 8 from h16 8]
    simp

end Fcgi.Model
