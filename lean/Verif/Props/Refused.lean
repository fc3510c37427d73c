import Verif.Spec.Refused
import Verif.Props.EndToEnd
import Verif.Props.ErrorPage
/-! # C151: who sends a request that is refused is told so, whatever else the server does -/
namespace Fcgi.Props
open Fcgi.Spec Fcgi.Model

/-- The parameters, their end, and a beginning of the body that is not too long: the request lives, has kept the body and has called nothing
that writes. -/
theorem input_run {U} (resp : U → Env → Message → Act U × Bool) (g) (sock id role kill max) (u : U)
    (hr : role = 1 ∨ role = 2) (ps : List (Record × List ((Bytes × Bytes) × Bytes))) (hps : ∀ p ∈ ps, WholePairs p.1 p.2)
    (p0 : Record) (hp0 : p0.WF ∧ p0.type = 4 ∧ p0.content = [])
    (bs : List Record) (hbs : ∀ b ∈ bs, b.WF ∧ b.type = 5 ∧ b.content ≠ [])
    {env : Env} (henv : fillPairs [0] (ps.flatMap Prod.snd) {} = .ok env) (hmax : env.contentLength.toNat ≤ max)
    (hlen : (bs.flatMap Record.content).length ≤ env.contentLength.toNat) :
    ∃ r, handler (defaultHandlers resp) g (freshReq sock id role kill max u) ((ps.map Prod.fst ++ [p0] ++ bs).map fcgiMsg) = .ok (r, [], false) ∧
      r.env = { env with postBuffer := bs.flatMap Record.content } ∧ NoResponse (callsOf r.log) := by
  obtain ⟨env', a1, a2⟩ := handler_params (defaultHandlers resp) g ps (freshReq sock id role kill max u) (freshReq_alive ..) rfl hr hps
  rw [show (freshReq sock id role kill max u).env = {} from rfl, henv] at a1
  cases a1
  have hpb : env.postBuffer = [] := by
    have : ∀ (its : List ((Bytes × Bytes) × Bytes)) (e e' : Env), fillPairs [0] its e = .ok e' → e'.postBuffer = e.postBuffer := by
      intro its
      induction its with
      | nil => intro e e' h; cases h; rfl
      | cons i its ih =>
        intro e e' h
        obtain ⟨⟨n, v⟩, b⟩ := i
        simp only [fillPairs] at h
        obtain ⟨e1, h1, h2⟩ := Res.bind_eq_ok.1 h
        rw [ih _ _ h2]
        cases fillStep_effect h1 <;> rfl
    exact this _ _ _ henv
  have al : Alive { freshReq sock id role kill max u with env := env, state := 5 } :=
    (freshReq_alive sock id role kill max u).of_eq rfl rfl rfl rfl rfl
  have s2 : handleMsg (defaultHandlers resp) g { freshReq sock id role kill max u with env := env } (fcgiMsg p0) =
      .ok ({ freshReq sock id role kill max u with env := env, state := 5 }, false) := by
    have al' : Alive { freshReq sock id role kill max u with env := env } :=
      (freshReq_alive sock id role kill max u).of_eq rfl rfl rfl rfl rfl
    rcases record_outcome (defaultHandlers resp) g _ al' p0 hp0.1 .params rfl with
      ⟨t, _⟩ | ⟨_, t, _⟩ | ⟨_, _, t, _⟩ | ⟨_, _, _, _, t, _⟩ | ⟨_, _, _, _, c, h1⟩ | ⟨_, _, _, c, _⟩ | ⟨p, _⟩ | ⟨p, _⟩ | ⟨p, _⟩
    · rw [hp0.2.1] at t; exact absurd t (by decide)
    · rw [hp0.2.1] at t; exact absurd rfl t
    · exact absurd hr t
    · exact absurd hmax (Nat.not_le_of_gt t)
    · exact h1
    · exact absurd hp0.2.2 c
    all_goals cases p
  obtain ⟨r3, b1, b2, b3, b4, b5⟩ := handler_stdin (defaultHandlers resp) (fun _ _ _ => rfl) g bs _ al rfl hbs
    (by simpa [hpb] using hlen)
  refine ⟨r3, ?_, by rw [b4]; simp [hpb], ?_⟩
  · rw [List.map_append, List.map_append, handler_append, handler_append, List.map_map,
      show (fcgiMsg ∘ Prod.fst : Record × List ((Bytes × Bytes) × Bytes) → Message) = fun p => fcgiMsg p.1 from rfl, a2]
    simp only [Res.ok_bind, Bool.false_eq_true, if_false, List.map_cons, List.map_nil, handler, s2, b1]
  · intro env m hm
    rw [b5] at hm
    rcases List.mem_append.1 hm with hm | hm
    · cases hm
    · obtain ⟨b, _, hb⟩ := List.mem_map.1 hm
      cases hb

/-- The phase that a beginning of a whole request leads to. -/
theorem phase_params (ps : List Record) (hps : ∀ p ∈ ps, p.content ≠ []) : phaseAfter ps = .params := by
  unfold phaseAfter
  induction ps with
  | nil => rfl
  | cons p ps ih =>
    rw [List.foldl_cons, show Phase.next .params p = .params from if_neg (hps p (by simp))]
    exact ih fun q hq => hps q (by simp [hq])
theorem phase_stdin (ps : List Record) (hps : ∀ p ∈ ps, p.content ≠ []) (p0 : Record) (hp0 : p0.content = []) (bs : List Record)
    (hbs : ∀ b ∈ bs, b.content ≠ []) : phaseAfter (ps ++ [p0] ++ bs) = .stdin := by
  have h1 := phase_params ps hps
  unfold phaseAfter at *
  rw [List.foldl_append, List.foldl_append, h1, List.foldl_cons, List.foldl_nil, show Phase.next .params p0 = .stdin from if_pos hp0]
  induction bs with
  | nil => rfl
  | cons b bs ih =>
    rw [List.foldl_cons, show Phase.next .stdin b = .stdin from if_neg (hbs b (by simp))]
    exact ih fun q hq => hbs q (by simp [hq])

/-- The piece of a body that is too long with which it becomes too long. -/
theorem excess_at : ∀ (bs : List Record) (n m : Nat), m ≤ n → n < m + (bs.flatMap Record.content).length →
    ∃ bs1 x bs2, bs = bs1 ++ x :: bs2 ∧ m + (bs1.flatMap Record.content).length ≤ n ∧ n < m + (bs1.flatMap Record.content).length + x.content.length := by
  intro bs
  induction bs with
  | nil => intro n m h1 h2; simp at h2; omega
  | cons b bs ih =>
    intro n m h1 h2
    by_cases h : n < m + b.content.length
    · exact ⟨[], b, bs, rfl, by simpa using h1, by simpa using h⟩
    · obtain ⟨bs1, x, bs2, e1, e2, e3⟩ := ih n (m + b.content.length) (by omega) (by simp only [List.flatMap_cons, List.length_append] at h2; omega)
      exact ⟨b :: bs1, x, bs2, by rw [e1]; rfl, by simp only [List.flatMap_cons, List.length_append]; omega,
        by simp only [List.flatMap_cons, List.length_append]; omega⟩

theorem records_of_inputs (l : List Record) : records (l.map Input.record) = l := by
  induction l with
  | nil => rfl
  | cons r l ih => simp only [List.map_cons, records, ih]

/-- What comes after the record with which a request is finished does not matter. -/
theorem handler_over {U} {h : Handlers U} {g} {r r' : Req U} {is : List Input} (e : handler h g r (is.map Input.message) = .ok (r', [], true))
    (more : List Input) : handler h g r ((is ++ more).map Input.message) = .ok (r', more.map Input.message, true) := by
  rw [List.map_append, handler_append, e]; rfl

/-- A request on its own that is refused. -/
theorem refused_alone {U : Type} {n : Nat} {resp : U → Env → Message → Act U × Bool} {max : Nat} {u : U} {heap rh ph} {c : Nat} {id : UInt16}
    {b : Record} {ins : List Record} {nvs : List (Bytes × Bytes)} {body page : Bytes} {status : UInt8} {kill : Bool} {q : Req U}
    {rest : List Message} {fin : Bool} (hwf : ∀ r ∈ ins, r.WF) (hreq : WholeRequest ins nvs body) (href : Refusal max b nvs body page status)
    (ha : Alone (narrowServer n (defaultHandlers resp) max u heap rh ph) c id b (ins.map .record) kill q rest fin) :
    fin = true ∧ RefusedAnswer c id.toNat kill status page (sentOf q.log) := by
  obtain ⟨role, r1, _, h⟩ := alone_narrow.1 ha
  obtain ⟨ps, p0, bs, i0, rfl, s2, rfl, s4, s5, rfl, s7⟩ := hreq.split
  have hk := keepsPages_default resp
  have fits : ∀ r, handler (defaultHandlers resp) heap (freshReq c id role kill max u) ((ps.map Prod.fst ++ [p0] ++ bs ++ [i0]).map Input.record |>.map Input.message) =
      .ok r → (r.2.2 = true ∧ RefusedAnswer c id.toNat kill status page (sentOf r.1.log)) → fin = true ∧ RefusedAnswer c id.toNat kill status page (sentOf q.log) := by
    intro r e hh
    rw [e] at h
    cases h
    exact hh
  have over : ∀ (l1 : List Record) (x : Record) (l2 : List Record), ps.map Prod.fst ++ [p0] ++ bs ++ [i0] = l1 ++ x :: l2 →
      (∃ r', handler (defaultHandlers resp) heap (freshReq c id role kill max u) ((l1.map Input.record ++ [Input.record x]).map Input.message) = .ok (r', [], true) ∧
        RefusedAnswer c id.toNat kill status page (sentOf r'.log)) → fin = true ∧ RefusedAnswer c id.toNat kill status page (sentOf q.log) := by
    rintro l1 x l2 hl ⟨r', e1, e2⟩
    have := handler_over e1 (l2.map Input.record)
    refine fits (r', (l2.map Input.record).map Input.message, true) ?_ ⟨rfl, e2⟩
    rw [hl, List.map_append, List.map_cons]
    rw [List.append_assoc, List.singleton_append] at this
    exact this
  have wfm : ∀ l : List Record, (∀ r ∈ l, r ∈ ps.map Prod.fst ++ [p0] ++ bs ++ [i0]) → ∀ i ∈ l.map Input.record, i.WF := by
    intro l hl i hi
    obtain ⟨r, hr, rfl⟩ := List.mem_map.1 hi
    exact hwf r (hl r hr)
  have msgs : ∀ l : List Record, (l.map Input.record).map Input.message = l.map fcgiMsg := fun l => by rw [List.map_map]; rfl
  have hrole : b.role = role.toNat := r1.symm
  have known : (b.role = 1 ∨ b.role = 2) → role = 1 ∨ role = 2 := by
    rw [hrole]
    exact fun h => h.imp (fun h => UInt16.toNat.inj h) (fun h => UInt16.toNat.inj h)
  have hpc : ∀ p ∈ ps.map Prod.fst, p.content ≠ [] := by
    intro p hp
    obtain ⟨x, hx, rfl⟩ := List.mem_map.1 hp
    exact (s2 x hx).nonempty
  have he : ∀ i ∈ ps.flatMap Prod.snd, EncPair i.1 i.2 := by
    intro i hi
    obtain ⟨p, hp, hi⟩ := List.mem_flatMap.1 hi
    exact (s2 p hp).enc i hi
  have e := encPairs_of _ he
  cases href with
  | role hr =>
    have hr' : role ≠ 1 ∧ role ≠ 2 := by
      rw [hrole] at hr
      exact ⟨fun h => hr.1 (by rw [h]; rfl), fun h => hr.2 (by rw [h]; rfl)⟩
    cases hps : ps with
    | nil =>
      refine over [] p0 (bs ++ [i0]) (by rw [hps]; simp) ?_
      exact C125_role_partial hk heap c id role kill max u [] (by simp) (r := freshReq c id role kill max u) rfl (by intro _ _ hm; cases hm) p0
        (hwf _ (by simp)) hr' s4.1 rfl
    | cons p ps' =>
      refine over [] p.1 (ps'.map Prod.fst ++ [p0] ++ bs ++ [i0]) (by rw [hps]; simp) ?_
      exact C125_role_partial hk heap c id role kill max u [] (by simp) (r := freshReq c id role kill max u) rfl (by intro _ _ hm; cases hm) p.1
        (hwf _ (by rw [hps]; simp)) hr' (s2 p (by rw [hps]; simp)).type rfl
  | announced hr told num int big =>
    obtain ⟨env, a1, a2⟩ := handler_params (defaultHandlers resp) heap ps (freshReq c id role kill max u) (freshReq_alive ..) rfl (known hr) s2
    have henv : fillPairs [0] (ps.flatMap Prod.snd) {} = .ok env := a1
    have hf : fill ([] ++ (ps.flatMap Prod.snd).flatMap Prod.snd ++ [0]) ([] : Bytes).length ([] ++ (ps.flatMap Prod.snd).flatMap Prod.snd).length {} = .ok env := by
      rw [fill_items _ [] [0] {} he]; exact henv
    have hcl := (C24_numbers (he := e) (hf := hf)).1 _ _ told num int
    refine over (ps.map Prod.fst) p0 (bs ++ [i0]) (by simp) ?_
    refine C125_announced_partial hk heap c id role kill max u _ (wfm _ (by intro r hr; simp [hr])) (r := { freshReq c id role kill max u with env := env }) ?_
      (by intro _ _ hm; cases hm) p0 (hwf _ (by simp)) (known hr) s4.1 s4.2 (by rw [records_of_inputs]; exact phase_params _ hpc) (by rw [hcl]; exact big)
    rw [msgs, List.map_map]
    exact a2
  | @excess n' hr told int ok more =>
    obtain ⟨env, a1, _⟩ := handler_params (defaultHandlers resp) heap ps (freshReq c id role kill max u) (freshReq_alive ..) rfl (known hr) s2
    have henv : fillPairs [0] (ps.flatMap Prod.snd) {} = .ok env := a1
    have hf : fill ([] ++ (ps.flatMap Prod.snd).flatMap Prod.snd ++ [0]) ([] : Bytes).length ([] ++ (ps.flatMap Prod.snd).flatMap Prod.snd).length {} = .ok env := by
      rw [fill_items _ [] [0] {} he]; exact henv
    have hcl : env.contentLength.toNat = n' := by
      obtain ⟨n1, _, _, _, _, n6, _⟩ := C24_numbers (he := e) (hf := hf)
      rcases told with ⟨h0, h1⟩ | ⟨v, h1, h2⟩
      · rw [n6 h1, h0]; rfl
      · exact n1 v _ h1 h2 int
    obtain ⟨bs1, x, bs2, x1, x2, x3⟩ := excess_at bs n' 0 (Nat.zero_le _) (by simpa using more)
    rw [Nat.zero_add] at x2 x3
    have sub : ∀ r ∈ ps.map Prod.fst ++ [p0] ++ bs1, r ∈ ps.map Prod.fst ++ [p0] ++ bs ++ [i0] := by
      intro r hr
      rw [x1]
      simp only [List.mem_append, List.mem_cons] at hr ⊢
      rcases hr with (hr | rfl | hr) | hr <;> simp_all
    have hx : x.WF ∧ x.type = 5 ∧ x.content ≠ [] := ⟨hwf x (by rw [x1]; simp), s5 x (by rw [x1]; simp)⟩
    have hb1 : ∀ r ∈ bs1, r.WF ∧ r.type = 5 ∧ r.content ≠ [] := fun r hr => ⟨hwf r (sub r (by simp [hr])), s5 r (by rw [x1]; simp [hr])⟩
    obtain ⟨r, i1, i2, i3⟩ := input_run resp heap c id role kill max u (known hr) ps s2 p0 ⟨hwf _ (by simp), s4⟩ bs1 hb1 henv (by rw [hcl]; exact ok) (by rw [hcl]; exact x2)
    refine over (ps.map Prod.fst ++ [p0] ++ bs1) x (bs2 ++ [i0]) (by rw [x1]; simp) ?_
    refine C125_excess_partial hk heap c id role kill max u _ (wfm _ sub) (r := r) (by rw [msgs]; exact i1) i3 x hx.1 hx.2.1 hx.2.2
      (by rw [records_of_inputs]; exact phase_stdin _ hpc p0 s4.2 bs1 fun r hr => (hb1 r hr).2.2) ?_
    rw [i2]
    dsimp only
    rw [hcl]
    exact x3
  | content hr told int ok some_ type =>
    obtain ⟨env, a1, _⟩ := handler_params (defaultHandlers resp) heap ps (freshReq c id role kill max u) (freshReq_alive ..) rfl (known hr) s2
    have henv : fillPairs [0] (ps.flatMap Prod.snd) {} = .ok env := a1
    have hf : fill ([] ++ (ps.flatMap Prod.snd).flatMap Prod.snd ++ [0]) ([] : Bytes).length ([] ++ (ps.flatMap Prod.snd).flatMap Prod.snd).length {} = .ok env := by
      rw [fill_items _ [] [0] {} he]; exact henv
    have hcl : env.contentLength.toNat = (bs.flatMap Record.content).length := by
      obtain ⟨n1, _, _, _, _, n6, _⟩ := C24_numbers (he := e) (hf := hf)
      rcases told with ⟨h0, h1⟩ | ⟨v, h1, h2⟩
      · rw [n6 h1, h0]; rfl
      · exact n1 v _ h1 h2 int
    have hb1 : ∀ r ∈ bs, r.WF ∧ r.type = 5 ∧ r.content ≠ [] := fun r hr => ⟨hwf r (by simp [hr]), s5 r hr⟩
    obtain ⟨r, i1, i2, i3⟩ := input_run resp heap c id role kill max u (known hr) ps s2 p0 ⟨hwf _ (by simp), s4⟩ bs hb1 henv (by rw [hcl]; exact ok)
      (by rw [hcl]; exact Nat.le_refl _)
    have hty : env.contentType ≠ b!"multipart/form-data" ∧ env.contentType ≠ b!"application/x-www-form-urlencoded" := by
      have ht := (C24_parsed (he := e) (hf := hf)).2.2
      cases hl : lastValue b!"CONTENT_TYPE" ((ps.flatMap Prod.snd).map Prod.fst) with
      | none => rw [hl] at ht; rw [ht]; exact ⟨by decide, by decide⟩
      | some t => rw [hl] at ht; rw [ht]; exact type t hl
    refine over (ps.map Prod.fst ++ [p0] ++ bs) i0 [] rfl ?_
    refine C125_unknown_content_partial hk heap c id role kill max u _ (wfm _ (by intro r hr; simp only [List.mem_append] at hr ⊢; exact Or.inl hr)) (r := r)
      (by rw [msgs]; exact i1) i3 i0 (hwf _ (by simp)) s7.1 s7.2
      (by rw [records_of_inputs]; exact phase_stdin _ hpc p0 s4.2 bs fun r hr => (hb1 r hr).2.2) rfl ?_ ?_ ?_
    · show r.env.postBuffer ≠ []
      rw [i2]; exact some_
    · show r.env.contentType ≠ _
      rw [i2]; exact hty.1
    · show r.env.contentType ≠ _
      rw [i2]; exact hty.2

/-- A web server sends a request for `id` on connection `c` that the library refuses (`Refusal`: an unknown role, a body above the limit, more body
than announced, a body that is not a form), in any pieces and among any other requests, to an application that keeps the library's handlers.
When the server has come to rest and the connection is open, the records for `id` on it are STDOUT records whose contents are the one
response with that status, nothing on STDERR, and END_REQUEST with the protocol status. -/
theorem C151_told {U : Type} {n : Nat} {resp : U → Env → Message → Act U × Bool} {max : Nat} {u : U}
    {heap rh ph} {tr tr' : List MEvent} {ops ops' : List TOp} {s s' : Srv (Req U)} {c : Nat} {id : UInt16} {rs : List Record} {tail : Bytes}
    {b : Record} {ins : List Record} {nvs : List (Bytes × Bytes)} {body page : Bytes} {status : UInt8}
    (h : SrvRun (narrowServer n (defaultHandlers resp) max u heap rh ph) srvInit tr ops s) (R : SrvUp s)
    (C : Conversation ops c id rs tail b ins) (hlost : ∀ r ∈ rs, r.id ≠ 0xffff)
    (hreq : WholeRequest ins nvs body) (href : Refusal max b nvs body page status)
    (h' : OwnRun (narrowServer n (defaultHandlers resp) max u heap rh ph) s tr' ops' s') (hr : SrvRest (narrowServer n (defaultHandlers resp) max u heap rh ph) s')
    (hv : (s'.t.conns c).valid = true) (hcall : called ⟨c, id⟩ (tr ++ tr') = []) :
    ∀ outs otail, (∀ r ∈ outs, r.WF) → Incomplete otail → (s'.t.conns c).output = stream outs ++ otail →
      otail = [] ∧ ∃ answer end_, outs.filter (fun r => r.id = id.toNat) = answer ++ [end_] ∧
        (∀ x ∈ answer, x.type = 6) ∧ ErrorAnswer page (answer.flatMap Record.content) ∧
        end_.type = 3 ∧ end_.content.take 5 = [0, 0, 0, 0, status] := by
  haveI : OfLibrary (narrowServer n (defaultHandlers resp) max u heap rh ph) := .narrow ..
  obtain ⟨is, kill, q, rest, fin, A, a1, a2, _, a4⟩ := C111_answered h R C hlost h' hr hv
  rw [hcall] at a2
  have his := inputs_records (List.prefix_nil.1 a2)
  rw [a1] at his
  subst his
  have hwf : ∀ r ∈ ins, r.WF := by
    intro r hr
    have : r ∈ rs.filter (fun r => r.id = id.toNat) := by rw [C.mine]; simp [hr]
    exact C.wf r (List.mem_filter.1 this).1
  obtain ⟨_, ans, en, c1, c2, c3, ⟨er, e1, e2, e3, e4, e5, e6, rfl⟩⟩ := refused_alone hwf hreq href A
  intro outs otail ho hi hs
  obtain ⟨o1, o2⟩ := a4 outs otail ho hi hs
  have hsent : (Transmits.sent q).map (·.2.1) = (ans ++ [er]).map Record.bytes := by
    show (sentOf q.log).map (·.2.1) = _
    rw [c1]; simp
  rw [hsent] at o2
  have hid : id.toNat < 2 ^ 16 := id.toNat_lt
  have hwa : ∀ y ∈ ans ++ [er], y.WF := by
    intro y hy
    rcases List.mem_append.1 hy with hy | hy
    · exact (c2 y hy).2.2.2.1
    · simp only [List.mem_singleton] at hy
      subst hy
      exact ⟨by rw [e3]; exact hid, by rw [e4]; decide, by rw [e6]; decide⟩
  have heq := records_bytes_inj (fun x hx => ho x (List.mem_filter.1 hx).1) hwa o2
  exact ⟨o1, ans, er, heq, fun x hx => (c2 x hx).2.1, c3, e2, e5⟩

/-- For a connection with this one request on which nothing goes wrong, the bytes are exactly those, and the connection has been closed exactly if
the web server did not ask to keep it. -/
theorem C151_closed {U : Type} {n : Nat} {resp : U → Env → Message → Act U × Bool} {max : Nat} {u : U}
    {heap rh ph} {tr tr' : List MEvent} {ops ops' : List TOp} {s s' : Srv (Req U)} {c : Nat} {id : UInt16} {rs : List Record} {tail : Bytes}
    {b : Record} {ins : List Record} {nvs : List (Bytes × Bytes)} {body page : Bytes} {status : UInt8}
    (h : SrvRun (narrowServer n (defaultHandlers resp) max u heap rh ph) srvInit tr ops s) (R : SrvUp s)
    (C : Conversation ops c id rs tail b ins) (hone : ∀ r ∈ rs, r.id = id.toNat)
    (hreq : WholeRequest ins nvs body) (href : Refusal max b nvs body page status)
    (h' : OwnRun (narrowServer n (defaultHandlers resp) max u heap rh ph) s tr' ops' s') (hr : SrvRest (narrowServer n (defaultHandlers resp) max u heap rh ph) s')
    (hcalm : Calm c (ops ++ ops')) (hcall : called ⟨c, id⟩ (tr ++ tr') = []) :
    ∃ answer end_, (s'.t.conns c).output = stream (answer ++ [end_]) ∧
      (∀ x ∈ answer ++ [end_], x.WF ∧ x.version = 1 ∧ x.id = id.toNat) ∧ (∀ x ∈ answer, x.type = 6) ∧
      ErrorAnswer page (answer.flatMap Record.content) ∧ end_.type = 3 ∧ end_.content.take 5 = [0, 0, 0, 0, status] ∧
      ((s'.t.conns c).valid = false ↔ (b.content.getD 2 0).toNat % 2 = 0) := by
  haveI : OfLibrary (narrowServer n (defaultHandlers resp) max u heap rh ph) := .narrow ..
  obtain ⟨is, kill, q, rest, fin, A, a1, a2, _, a4, a5⟩ := C111_closed h R C hone h' hr hcalm
  rw [hcall] at a2
  have his := inputs_records (List.prefix_nil.1 a2)
  rw [a1] at his
  subst his
  have hwf : ∀ r ∈ ins, r.WF := by
    intro r hr
    have : r ∈ rs.filter (fun r => r.id = id.toNat) := by rw [C.mine]; simp [hr]
    exact C.wf r (List.mem_filter.1 this).1
  obtain ⟨f1, ans, en, c1, c2, c3, ⟨er, e1, e2, e3, e4, e5, e6, rfl⟩⟩ := refused_alone hwf hreq href A
  obtain ⟨_, _, hk, _⟩ := A
  have hsent : (Transmits.sent q).flatMap (·.2.1) = stream (ans ++ [er]) := by
    show (sentOf q.log).flatMap (·.2.1) = _
    rw [c1]
    simp [stream, List.flatMap_map]
  rw [hsent] at a4
  have hid : id.toNat < 2 ^ 16 := id.toNat_lt
  refine ⟨ans, er, a4, ?_, fun x hx => (c2 x hx).2.1, c3, e2, e5, ?_⟩
  · intro y hy
    rcases List.mem_append.1 hy with hy | hy
    · exact ⟨(c2 y hy).2.2.2.1, (c2 y hy).1, (c2 y hy).2.2.1⟩
    · simp only [List.mem_singleton] at hy
      subst hy
      exact ⟨⟨by rw [e3]; exact hid, by rw [e4]; decide, by rw [e6]; decide⟩, e1, e3⟩
  · rw [a5, ← hk]
    exact ⟨fun x => x.2, fun x => ⟨f1, x⟩⟩

/-! ### A concrete run: the application of C148 is sent plain text -/

def plainPairs : List ((Bytes × Bytes) × Bytes) :=
  [((b!"CONTENT_LENGTH", b!"9"), [14, 1] ++ b!"CONTENT_LENGTH" ++ b!"9"),
   ((b!"CONTENT_TYPE", b!"text/plain"), [12, 10] ++ b!"CONTENT_TYPE" ++ b!"text/plain")]
def plainIns : List Record :=
  [demoRec 4 (plainPairs.flatMap Prod.snd), demoRec 4 [], demoRec 5 b!"some", demoRec 5 b!" text", demoRec 5 []]
def plainBytes : Bytes := stream (formBegin :: plainIns)
def plainRun : List SrvChoice := [.outer .start, .go 50, .op (.arrive 3 plainBytes)]

def plainEnd (x : List MEvent × List TOp × Srv (Req Unit)) : Bool :=
  x.2.2.m.terminate == false && x.2.2.m.stop == false && (match x.2.2.m.th 0 with | .off | .finished => false | _ => true) &&
  (x.2.1.filterMap fun | .arrive c d => some (c, d) | _ => none) == [(3, plainBytes)] && (called ⟨3, 7⟩ x.1).isEmpty && (match x.2.2.m.pu 0 with | .idle => true | _ => false) &&
  x.2.1.all (fun o => match o with | .receive _ _ _ => false | .tx _ => false | .hangup _ => false | _ => true)

theorem plainRun_end : (srvPlay formServer plainRun ([], [], srvInit)).any plainEnd = true := by decide +kernel

theorem plainWhole : WholePairs (demoRec 4 (plainPairs.flatMap Prod.snd)) plainPairs := by
  refine ⟨by unfold Record.WF; decide, rfl, by decide, rfl, ?_, ?_, ⟨0, by decide, by decide⟩⟩
  · intro i hi
    simp only [plainPairs, List.mem_cons, List.not_mem_nil, or_false] at hi
    rcases hi with rfl | rfl
    · exact ⟨[14], [1], .short 14 (by decide), .short 1 (by decide), by decide⟩
    · exact ⟨[12], [10], .short 12 (by decide), .short 10 (by decide), by decide⟩
  · intro i hi
    simp only [plainPairs, List.mem_cons, List.not_mem_nil, or_false] at hi
    rcases hi with rfl | rfl
    · exact ⟨fun _ => ⟨9, by decide, by decide, by unfold IsDigit; decide, by decide⟩, fun h => absurd h (by decide)⟩
    · exact ⟨fun h => absurd h (by decide), fun h => absurd h (by decide)⟩

/-- The other kinds of refusal. -/
example : Refusal 100 (demoRec 1 [0, 3, 0, 0, 0, 0, 0, 0]) [] [] b!"500 Internal Server Error" 3 ∧
    Refusal 5 formBegin (plainPairs.map Prod.fst) b!"some text" b!"413 Request Entity Too Large" 0 ∧
    Refusal 9 formBegin (plainPairs.map Prod.fst) b!"some more text" b!"413 Request Entity Too Large" 0 ∧
    Refusal 9 formBegin [] b!"x" b!"413 Request Entity Too Large" 0 :=
  ⟨.role (by decide), .announced (v := b!"9") (n := 9) (Or.inl (by decide)) (by decide) ⟨by decide, by unfold IsDigit; decide, by decide⟩ (by decide) (by decide),
    .excess (n := 9) (Or.inl (by decide)) (Or.inr ⟨b!"9", by decide, by decide, by unfold IsDigit; decide, by decide⟩) (by decide) (by decide) (by decide),
    .excess (n := 0) (Or.inl (by decide)) (Or.inl ⟨rfl, by decide⟩) (by decide) (by decide) (by decide)⟩

/-- The body arrives, the server comes to rest, and its peer has got the page and END_REQUEST. -/
example : ∃ tr ops s tr' ops' s', SrvRun formServer srvInit tr ops s ∧ SrvUp s ∧ OwnRun formServer s tr' ops' s' ∧ SrvRest formServer s' ∧
    arrived 3 ops = plainBytes ∧ Calm 3 (ops ++ ops') ∧ called ⟨3, 7⟩ (tr ++ tr') = [] ∧
    ∃ answer end_, (s'.t.conns 3).output = stream (answer ++ [end_]) ∧ (∀ x ∈ answer, x.type = 6) ∧
      ErrorAnswer b!"415 Unsupported Media Type" (answer.flatMap Record.content) ∧ end_.type = 3 ∧ (s'.t.conns 3).valid = false := by
  cases hp : srvPlay formServer plainRun ([], [], srvInit) with
  | none => have := plainRun_end; rw [hp] at this; cases this
  | some y =>
  have he : plainEnd y = true := by have := plainRun_end; rw [hp] at this; exact this
  have g := srvPlay_good plainRun (P := formServer) (x := ([], [], srvInit)) ⟨.refl _, fun _ _ => rfl⟩ hp
  obtain ⟨tr, ops, s⟩ := y
  have h1 : SrvRun formServer srvInit tr ops s := g.1
  simp only [plainEnd, Bool.and_eq_true, beq_iff_eq, List.isEmpty_iff, List.all_eq_true] at he
  obtain ⟨⟨⟨⟨⟨⟨a1, a2⟩, a3⟩, a4⟩, a5⟩, a6⟩, a7⟩ := he
  have ha : ∀ c, arrived c ops = if c = 3 then plainBytes else [] := by
    intro c
    rw [(arrived_pairs c ops).trans (congrArg (fun l : List (Nat × Bytes) => (l.filter (fun x => x.1 = c)).flatMap (·.2)) a4)]
    by_cases hc : c = 3
    · subst hc; simp
    · have : ¬ 3 = c := fun e => hc e.symm
      simp [hc, this]
  have R : SrvUp s := ⟨⟨0, by revert a3; cases s.m.th 0 <;> simp⟩, a1, a2⟩
  have hwf : ∀ r ∈ formBegin :: plainIns, r.WF ∧ r.id = 7 := by
    intro r hr
    simp only [plainIns, formBegin, List.mem_cons, List.not_mem_nil, or_false] at hr
    rcases hr with rfl | rfl | rfl | rfl | rfl | rfl <;> exact ⟨by unfold Record.WF; decide, rfl⟩
  have C : Conversation ops 3 7 (formBegin :: plainIns) [] formBegin plainIns := by
    refine ⟨fun r hr => (hwf r hr).1, Or.inl (by simp), by rw [ha, if_pos rfl, List.append_nil]; rfl, by decide, fun r hr => ?_, ?_, rfl, ?_, ?_, ?_⟩
    · intro h0; rw [(hwf r hr).2] at h0; cases h0
    · apply List.filter_eq_self.2
      intro r hr; rw [(hwf r hr).2]; rfl
    · intro r hr
      simp only [plainIns, List.mem_cons, List.not_mem_nil, or_false] at hr
      rcases hr with rfl | rfl | rfl | rfl | rfl <;> decide
    · simp [formBegin, demoRec]
    · intro r hr h4 h0
      simp only [plainIns, List.mem_cons, List.not_mem_nil, or_false] at hr
      rcases hr with rfl | rfl | rfl | rfl | rfl
      · exact ⟨_, plainWhole⟩
      · exact absurd rfl h0
      all_goals exact absurd h4 (by decide)
  have hn : NoValues ops := by
    intro c
    by_cases hc : c = 3
    · subst hc
      exact ⟨_, _, C.wf, C.rest, C.bytes, fun r hr h0 h9 => absurd h9 (C.app r hr h0)⟩
    · exact ⟨[], [], by simp, Or.inl (by simp), by rw [ha, if_neg hc]; rfl, by simp⟩
  obtain ⟨tr', ops', s', q1, q2, q3⟩ := C111_reaches_calm h1
  have hrest := (C111_rests h1 hn).2 tr' ops' s' q1 q3
  have hidle : NoCaller s.m := by
    intro p k x hx
    have : s.m.pu p = .idle := by
      by_cases hp0 : p = 0
      · subst hp0; revert a6; cases s.m.pu 0 <;> simp
      · exact g.2 p hp0
    rw [this] at hx
    rcases hx with hx | hx <;> cases hx
  have hcalm : Calm 3 (ops ++ ops') := by
    obtain ⟨b1, b2, b3⟩ := q2 3
    refine ⟨fun hm => ?_, fun k1 k2 hm => ?_, fun hm => ?_⟩
    · rcases List.mem_append.1 hm with hm | hm
      · have := a7 _ hm; cases this
      · exact b1 hm
    · rcases List.mem_append.1 hm with hm | hm
      · have := a7 _ hm; cases this
      · exact b2 k1 k2 hm
    · rcases List.mem_append.1 hm with hm | hm
      · have := a7 _ hm; cases this
      · exact b3 hm
  have hcalled : called ⟨3, 7⟩ (tr ++ tr') = [] := by
    rw [called_append, a5, (own_called q1 hidle _).2]; rfl
  have hreq : WholeRequest plainIns (plainPairs.map Prod.fst) b!"some text" :=
    ⟨[(demoRec 4 (plainPairs.flatMap Prod.snd), plainPairs)], demoRec 4 [], [demoRec 5 b!"some", demoRec 5 b!" text"], demoRec 5 [], rfl,
      by intro p hp; simp only [List.mem_singleton] at hp; subst hp; exact plainWhole, by simp, ⟨rfl, rfl⟩,
      by intro b hb; simp only [List.mem_cons, List.not_mem_nil, or_false] at hb; rcases hb with rfl | rfl <;> exact ⟨rfl, by decide⟩, by decide, ⟨rfl, rfl⟩⟩
  obtain ⟨answer, en, o1, _, o2, o3, o4, _, o5⟩ := C151_closed (resp := formResp) h1 R C (fun r hr => (hwf r hr).2) hreq
    (.content (Or.inl (by decide)) (Or.inr ⟨b!"9", by decide, by decide, by unfold IsDigit; decide, by decide⟩) (by decide) (by decide) (by decide)
      (by
        intro t ht
        have : lastValue b!"CONTENT_TYPE" (plainPairs.map Prod.fst) = some b!"text/plain" := by decide
        rw [this] at ht
        cases ht
        decide)) q1 hrest hcalm hcalled
  exact ⟨tr, ops, s, tr', ops', s', h1, R, q1, hrest, by rw [ha, if_pos rfl], hcalm, hcalled, answer, en, o1, o2, o3, o4, o5.2 (by decide)⟩

end Fcgi.Props
