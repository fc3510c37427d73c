import Verif.Lemmas.ServerWire
import Verif.Props.Request
import Verif.Spec.Server
/-! # When everything has been dealt with -/
namespace Fcgi.Model
open Fcgi.Spec Fcgi.Props
variable {U : Type} [Transmits U]

/-- Who sends what. -/
theorem sent_owner {P : SrvProg U} [OfLibrary P] {tr ops s} (h : SrvRun P srvInit tr ops s) : ∀ c, ∀ x ∈ sentTo c ops,
    (frameId x.1 = 0 ∧ ∃ y ∈ s.t.msgs, y.id = ⟨c, 0⟩) ∨ ∃ r id m, .created r ⟨c, id⟩ m ∈ tr ∧ frameId x.1 = id.toNat := by
  induction h with
  | refl => intro c x hx; simp [sentTo] at hx
  | step run hs ih =>
    rename_i tr ops s' es os s''
    have A := srv_parts run
    have J := srv_sends run
    have J' := srv_sends (SrvRun.step run hs)
    obtain ⟨I, S, K, Q⟩ := run_kq A.m
    have keep : (∀ c, sentTo c os = []) → ∀ c, ∀ x ∈ sentTo c (ops ++ os),
        (frameId x.1 = 0 ∧ ∃ y ∈ s''.t.msgs, y.id = ⟨c, 0⟩) ∨ ∃ r id m, .created r ⟨c, id⟩ m ∈ tr ++ es ∧ frameId x.1 = id.toNat := by
      intro h0 c x hx
      rcases J'.st c x hx with ⟨_, hne⟩ | h
      · rw [sentTo_append, h0, List.append_nil] at hx
        rcases ih c x hx with ⟨h, _⟩ | ⟨r, id, m, h1, h2⟩
        · exact absurd h hne
        · exact Or.inr ⟨r, id, m, by simp [h1], h2⟩
      · exact Or.inl h
    cases hs with
    | peer op ho h => exact keep (fun c => by cases op <;> simp [TOp.byPeer] at ho <;> rfl)
    | net op ho hi hg h => exact keep (fun c => by cases op <;> simp [TOp.byThread] at ho <;> rfl)
    | give x hx h => exact keep (fun c => rfl)
    | pusher p w h => exact keep (fun c => rfl)
    | outer e he h => exact keep (fun c => rfl)
    | again t l ho hl => exact keep (fun c => rfl)
    | work t ho hl h => exact keep (fun c => rfl)
    | send t x rest ho =>
      intro c y hy
      rw [sentTo_append] at hy
      rw [List.append_nil]
      rcases List.mem_append.1 hy with hy | hy
      · exact ih c y hy
      · have hxo : x ∈ s'.out t := by rw [ho]; simp
        simp only [sentTo, List.flatMap_cons, List.flatMap_nil, List.append_nil] at hy
        split at hy
        · rename_i hc
          simp only [List.mem_singleton] at hy
          subst hy
          cases hmo : (s'.m.th t).mutexOf with
          | none =>
            obtain ⟨e1, e2⟩ := J.ow2 t hmo x hxo
            exact Or.inl ⟨e1, by rw [← hc]; exact e2⟩
          | some e =>
            obtain ⟨k, r⟩ := e
            obtain ⟨e1, e2, e3⟩ := J.ow1 t k r hmo x hxo
            obtain ⟨m, hm⟩ := (run_ainv A.m).cr k r (I.mt t _ hmo)
            right
            refine ⟨r, k.id, m, ?_, e3⟩
            have : k = ⟨c, k.id⟩ := by
              obtain ⟨a, b⟩ := k; simp only at e1; rw [← hc, e1]
            rw [← this]; exact hm
        · cases hy

theorem created_routed {P : SrvProg U} {tr s} (h : MRun P.prog (mInit none) tr s) {r k m} (hc : .created r k m ∈ tr) : m ∈ routedFor k tr := by
  have hb : isBegin m = true := by
    obtain ⟨a, b, hab⟩ := List.append_of_mem hc
    exact ((run_rinv h).ok a _ b hab).1
  have ht : m.type = 0 := by simp only [isBegin, Bool.and_eq_true, decide_eq_true_eq] at hb; exact hb.1
  unfold routedFor
  rw [List.mem_filterMap]
  refine ⟨(k, m), ?_, by simp [ht]⟩
  unfold routedOf
  rw [List.mem_filterMap]
  exact ⟨_, hc, rfl⟩

/-- Messages of which the FastCGI records are the first of `ins`, as inputs. -/
theorem to_inputs (ms : List Message) : ∀ (ins : List Record), ms.filter (fun m => m.type = 0) <+: ins.map recordMsg →
    ∃ is : List Input, is.map Input.message = ms ∧ records is <+: ins ∧ (records is).map recordMsg = ms.filter (fun m => m.type = 0) ∧
      (∀ t d, .callback t d ∈ is → t ≠ 0) ∧ ∀ x, .record x ∈ is → x ∈ ins := by
  induction ms with
  | nil => intro ins _; exact ⟨[], rfl, by simp [records], rfl, by simp, by simp⟩
  | cons m ms ih =>
    intro ins h
    by_cases ht : m.type = 0
    · simp only [List.filter_cons, ht, decide_true, if_true] at h
      cases ins with
      | nil => simp at h
      | cons x ins =>
        rw [List.map_cons, List.cons_prefix_cons] at h
        obtain ⟨is, h1, h2, h3, h4, h5⟩ := ih ins h.2
        refine ⟨.record x :: is, ?_, ?_, ?_, ?_, ?_⟩
        · rw [List.map_cons, h1, h.1]; rfl
        · simp only [records]; rw [List.cons_prefix_cons]; exact ⟨rfl, h2⟩
        · simp only [records, List.map_cons, List.filter_cons, ht, decide_true, if_true, h3]; rw [h.1]
        · intro t d hm; simp at hm; exact h4 t d hm
        · intro y hy
          rcases List.mem_cons.1 hy with hy | hy
          · cases hy; simp
          · simp [h5 y hy]
    · simp only [List.filter_cons, ht, decide_false, Bool.false_eq_true, if_false] at h
      obtain ⟨is, h1, h2, h3, h4, h5⟩ := ih ins h
      refine ⟨.callback m.type m.data :: is, ?_, ?_, ?_, ?_, ?_⟩
      · rw [List.map_cons, h1]; rfl
      · exact h2
      · simp only [records, List.filter_cons, ht, decide_false, Bool.false_eq_true, if_false]; exact h3
      · intro t d hm
        rcases List.mem_cons.1 hm with hm | hm
        · cases hm; exact ht
        · exact h4 t d hm
      · intro y hy; simp at hy; exact h5 y hy

theorem records_append' (a b : List Input) : records (a ++ b) = records a ++ records b := by
  induction a with
  | nil => rfl
  | cons i a ih => cases i <;> simp [records, ih]

theorem records_map (l : List Record) : records (l.map .record) = l := by
  induction l with
  | nil => rfl
  | cons a l ih => simp [records, ih]

theorem callbacks_filter {is : List Input} (h : ∀ t d, .callback t d ∈ is → t ≠ 0) :
    callbacks is = (is.map Input.message).filter (fun m => m.type ≠ 0) := by
  induction is with
  | nil => rfl
  | cons i is ih =>
    have ih := ih (fun t d hm => h t d (List.mem_cons_of_mem _ hm))
    cases i with
    | record r => simp only [callbacks, List.map_cons, ih]; rfl
    | callback t d =>
      have ht := h t d (by simp)
      simp only [callbacks, List.map_cons, ih, Input.message, List.filter_cons, ne_eq, ht, not_false_eq_true, decide_true, if_true]

theorem callbacks_append (a b : List Input) : callbacks (a ++ b) = callbacks a ++ callbacks b := by
  induction a with
  | nil => rfl
  | cons i a ih => cases i <;> simp [callbacks, ih]

theorem callbacks_records (rs : List Record) : callbacks (rs.map .record) = [] := by
  induction rs with
  | nil => rfl
  | cons r rs ih => simpa [callbacks] using ih

/-- What the object of a request was called with. -/
theorem called_sub {r : Nat} {k : RequestId} {tr : List MEvent} (h : ∀ k' m, .accepted r k' m ∈ tr → k' = k) :
    List.Sublist ((acceptedBy r tr).filter (fun m => m.type ≠ 0)) (called k tr) := by
  induction tr with
  | nil => exact List.Sublist.refl _
  | cons e tr ih =>
    have ih := ih (fun k' m hm => h k' m (List.mem_cons_of_mem _ hm))
    have hh := fun k' m (he : e = .accepted r k' m) => h k' m (by simp [he])
    unfold acceptedBy called at ih ⊢
    cases e with
    | accepted r' k' m =>
      by_cases hr : r' = r
      · have hk : k' = k := hh k' m (by rw [hr])
        by_cases ht : m.type = 0
        · simpa [List.filterMap_cons, hr, hk, ht] using ih
        · simpa [List.filterMap_cons, hr, hk, ht] using ih
      · by_cases hk : k' = k ∧ m.type ≠ 0
        · rw [List.filterMap_cons, List.filterMap_cons]
          simp only [if_neg hr, if_pos hk]
          exact List.Sublist.cons _ ih
        · simp only [List.filterMap_cons, hr, if_false, if_neg hk]
          exact ih
    | _ => simpa [List.filterMap_cons] using ih

/-- If there was one request only with the connection and id, these are all. -/
theorem called_one {r : Nat} {k : RequestId} {tr : List MEvent} (h : ∀ k' m, .accepted r k' m ∈ tr → k' = k) (h' : ∀ r' m, .accepted r' k m ∈ tr → r' = r) :
    (acceptedBy r tr).filter (fun m => m.type ≠ 0) = called k tr := by
  induction tr with
  | nil => rfl
  | cons e tr ih =>
    have ih := ih (fun k' m hm => h k' m (List.mem_cons_of_mem _ hm)) (fun r' m hm => h' r' m (List.mem_cons_of_mem _ hm))
    have hh := fun k' m (he : e = .accepted r k' m) => h k' m (by simp [he])
    have hh' := fun r' m (he : e = .accepted r' k m) => h' r' m (by simp [he])
    unfold acceptedBy called at ih ⊢
    cases e with
    | accepted r' k' m =>
      by_cases hr : r' = r
      · have hk : k' = k := hh k' m (by rw [hr])
        by_cases ht : m.type = 0
        · simpa [List.filterMap_cons, hr, hk, ht] using ih
        · simpa [List.filterMap_cons, hr, hk, ht] using ih
      · have hk : ¬ (k' = k ∧ m.type ≠ 0) := by
          rintro ⟨rfl, _⟩; exact hr (hh' r' m rfl)
        simp only [List.filterMap_cons, hr, if_false, if_neg hk]
        exact ih
    | _ => simpa [List.filterMap_cons] using ih

end Fcgi.Model
