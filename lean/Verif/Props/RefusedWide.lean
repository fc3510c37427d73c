import Verif.Props.Refused
import Verif.Props.EndToEndWide
/-! # C151 for applications with wide characters -/
namespace Fcgi.Props
open Fcgi.Spec Fcgi.Model

/-- See `input_run`. -/
theorem input_runW {U} (resp : U → EnvW → Message → ActW U × Bool) (g) (sock id role kill max) (u : U)
    (hr : role = 1 ∨ role = 2) (ps : List (Record × List ((Bytes × Bytes) × Bytes))) (hps : ∀ p ∈ ps, WholePairs p.1 p.2)
    (p0 : Record) (hp0 : p0.WF ∧ p0.type = 4 ∧ p0.content = [])
    (bs : List Record) (hbs : ∀ b ∈ bs, b.WF ∧ b.type = 5 ∧ b.content ≠ [])
    {env : Env} (henv : fillPairs [0] (ps.flatMap Prod.snd) {} = .ok env) (hmax : env.contentLength.toNat ≤ max)
    (hlen : (bs.flatMap Record.content).length ≤ env.contentLength.toNat) :
    ∃ r, handlerW (defaultHandlersW resp) g (freshReqW sock id role kill max u) ((ps.map Prod.fst ++ [p0] ++ bs).map fcgiMsg) = .ok (r, [], false) ∧
      SameEnv { env with postBuffer := bs.flatMap Record.content } r.env ∧ NoResponseW (callsOfW r.log) := by
  obtain ⟨env', envW, a1, as, at', a2⟩ := handler_paramsW (defaultHandlersW resp) g ps (freshReqW sock id role kill max u) {} [] (freshReq_aliveW ..)
    rfl hr hps sameEnv_fresh texts_fresh
  rw [henv] at a1
  cases a1
  rw [List.nil_append] at at'
  have hpbn : env.postBuffer = [] := by
    have : ∀ (its : List ((Bytes × Bytes) × Bytes)) (e e' : Env), fillPairs [0] its e = .ok e' → e'.postBuffer = e.postBuffer := by
      intro its
      induction its with
      | nil => intro e e' h; cases h; rfl
      | cons i its ih =>
        intro e e' h
        obtain ⟨⟨n, v⟩, b⟩ := i
        simp only [fillPairs] at h
        obtain ⟨e1, h1, h2⟩ := Res.bind_eq_ok.1 h
        rw [ih _ _ h2]
        cases fillStep_effect h1 <;> rfl
    exact this _ _ _ henv
  have hpb : envW.postBuffer = [] := by rw [← as.postBuffer]; exact hpbn
  have al : AliveW { freshReqW sock id role kill max u with env := envW, state := 5 } :=
    (freshReq_aliveW sock id role kill max u).of_eq rfl rfl rfl rfl rfl
  have s2 : handleMsgW (defaultHandlersW resp) g { freshReqW sock id role kill max u with env := envW } (fcgiMsg p0) =
      .ok ({ freshReqW sock id role kill max u with env := envW, state := 5 }, false) := by
    have al' : AliveW { freshReqW sock id role kill max u with env := envW } :=
      (freshReq_aliveW sock id role kill max u).of_eq rfl rfl rfl rfl rfl
    rcases record_outcomeW (defaultHandlersW resp) g _ al' p0 hp0.1 .params rfl with
      ⟨t, _⟩ | ⟨_, t, _⟩ | ⟨_, _, t, _⟩ | ⟨_, _, _, _, t, _⟩ | ⟨_, _, _, _, c, h1⟩ | ⟨_, _, _, c, _⟩ | ⟨p, _⟩ | ⟨p, _⟩ | ⟨p, _⟩
    · rw [hp0.2.1] at t; exact absurd t (by decide)
    · rw [hp0.2.1] at t; exact absurd rfl t
    · exact absurd hr t
    · dsimp only at t
      rw [← as.contentLength] at t
      exact absurd hmax (Nat.not_le_of_gt t)
    · exact h1
    · exact absurd hp0.2.2 c
    all_goals cases p
  obtain ⟨r3, b1, b2, b3, b4, b6, b5⟩ := handler_stdinW (defaultHandlersW resp) (fun _ _ _ => ⟨rfl, rfl⟩) g bs _ al rfl hbs
    (by simpa [hpb, ← as.contentLength] using hlen)
  refine ⟨r3, ?_, by rw [b4]; exact { as with postBuffer := by simp [hpb] }, ?_⟩
  · rw [List.map_append, List.map_append, handler_appendW, handler_appendW, List.map_map,
      show (fcgiMsg ∘ Prod.fst : Record × List ((Bytes × Bytes) × Bytes) → Message) = fun p => fcgiMsg p.1 from rfl, a2]
    simp only [Res.ok_bind, Bool.false_eq_true, if_false, List.map_cons, List.map_nil, handlerW, s2, b1]
  · intro env m hm
    rw [b5] at hm
    rcases List.mem_append.1 hm with hm | hm
    · cases hm
    · obtain ⟨b, _, hb⟩ := List.mem_map.1 hm
      cases hb

/-- What comes after the record with which a request is finished does not matter. -/
theorem handler_overW {U} {h : HandlersW U} {g} {r r' : ReqW U} {is : List Input} (e : handlerW h g r (is.map Input.message) = .ok (r', [], true))
    (more : List Input) : handlerW h g r ((is ++ more).map Input.message) = .ok (r', more.map Input.message, true) := by
  rw [List.map_append, handler_appendW, e]; rfl

/-- A request on its own that is refused. -/
theorem refused_aloneW {U : Type} {n : Nat} {resp : U → EnvW → Message → ActW U × Bool} {max : Nat} {u : U} {host rh ph} {c : Nat} {id : UInt16}
    {b : Record} {ins : List Record} {nvs : List (Bytes × Bytes)} {body page : Bytes} {status : UInt8} {kill : Bool} {q : ReqW U}
    {rest : List Message} {fin : Bool} (hwf : ∀ r ∈ ins, r.WF) (hreq : WholeRequest ins nvs body) (href : Refusal max b nvs body page status)
    (htype : ∀ t, lastValue b!"CONTENT_TYPE" nvs = some t → ∃ x, IsText x ∧ t.takeWhile (· ≠ 59) = utf8Text x)
    (ha : Alone (wideServer n (defaultHandlersW resp) max u host rh ph) c id b (ins.map .record) kill q rest fin) :
    fin = true ∧ RefusedAnswer c id.toNat kill status page (sentOfW q.log) := by
  obtain ⟨role, r1, _, h⟩ := alone_wide.1 ha
  obtain ⟨ps, p0, bs, i0, rfl, s2, rfl, s4, s5, rfl, s7⟩ := hreq.split
  have hk := keepsPages_defaultW resp
  have fits : ∀ r, handlerW (defaultHandlersW resp) host (freshReqW c id role kill max u) ((ps.map Prod.fst ++ [p0] ++ bs ++ [i0]).map Input.record |>.map Input.message) =
      .ok r → (r.2.2 = true ∧ RefusedAnswer c id.toNat kill status page (sentOfW r.1.log)) → fin = true ∧ RefusedAnswer c id.toNat kill status page (sentOfW q.log) := by
    intro r e hh
    rw [e] at h
    cases h
    exact hh
  have over : ∀ (l1 : List Record) (x : Record) (l2 : List Record), ps.map Prod.fst ++ [p0] ++ bs ++ [i0] = l1 ++ x :: l2 →
      (∃ r', handlerW (defaultHandlersW resp) host (freshReqW c id role kill max u) ((l1.map Input.record ++ [Input.record x]).map Input.message) = .ok (r', [], true) ∧
        RefusedAnswer c id.toNat kill status page (sentOfW r'.log)) → fin = true ∧ RefusedAnswer c id.toNat kill status page (sentOfW q.log) := by
    rintro l1 x l2 hl ⟨r', e1, e2⟩
    have := handler_overW e1 (l2.map Input.record)
    refine fits (r', (l2.map Input.record).map Input.message, true) ?_ ⟨rfl, e2⟩
    rw [hl, List.map_append, List.map_cons]
    rw [List.append_assoc, List.singleton_append] at this
    exact this
  have wfm : ∀ l : List Record, (∀ r ∈ l, r ∈ ps.map Prod.fst ++ [p0] ++ bs ++ [i0]) → ∀ i ∈ l.map Input.record, i.WF := by
    intro l hl i hi
    obtain ⟨r, hr, rfl⟩ := List.mem_map.1 hi
    exact hwf r (hl r hr)
  have msgs : ∀ l : List Record, (l.map Input.record).map Input.message = l.map fcgiMsg := fun l => by rw [List.map_map]; rfl
  have hrole : b.role = role.toNat := r1.symm
  have known : (b.role = 1 ∨ b.role = 2) → role = 1 ∨ role = 2 := by
    rw [hrole]
    exact fun h => h.imp (fun h => UInt16.toNat.inj h) (fun h => UInt16.toNat.inj h)
  have hpc : ∀ p ∈ ps.map Prod.fst, p.content ≠ [] := by
    intro p hp
    obtain ⟨x, hx, rfl⟩ := List.mem_map.1 hp
    exact (s2 x hx).nonempty
  have he : ∀ i ∈ ps.flatMap Prod.snd, EncPair i.1 i.2 := by
    intro i hi
    obtain ⟨p, hp, hi⟩ := List.mem_flatMap.1 hi
    exact (s2 p hp).enc i hi
  have e := encPairs_of _ he
  cases href with
  | role hr =>
    have hr' : role ≠ 1 ∧ role ≠ 2 := by
      rw [hrole] at hr
      exact ⟨fun h => hr.1 (by rw [h]; rfl), fun h => hr.2 (by rw [h]; rfl)⟩
    cases hps : ps with
    | nil =>
      refine over [] p0 (bs ++ [i0]) (by rw [hps]; simp) ?_
      exact C125_wide_role_partial hk host c id role kill max u [] (by simp) (r := freshReqW c id role kill max u) rfl (by intro _ _ hm; cases hm) p0
        (hwf _ (by simp)) hr' s4.1 rfl
    | cons p ps' =>
      refine over [] p.1 (ps'.map Prod.fst ++ [p0] ++ bs ++ [i0]) (by rw [hps]; simp) ?_
      exact C125_wide_role_partial hk host c id role kill max u [] (by simp) (r := freshReqW c id role kill max u) rfl (by intro _ _ hm; cases hm) p.1
        (hwf _ (by rw [hps]; simp)) hr' (s2 p (by rw [hps]; simp)).type rfl
  | announced hr told num int big =>
    obtain ⟨env, envW, a1, same, _, a2⟩ := handler_paramsW (defaultHandlersW resp) host ps (freshReqW c id role kill max u) {} [] (freshReq_aliveW ..) rfl (known hr) s2
      sameEnv_fresh texts_fresh
    have henv : fillPairs [0] (ps.flatMap Prod.snd) {} = .ok env := a1
    have hf : fill ([] ++ (ps.flatMap Prod.snd).flatMap Prod.snd ++ [0]) ([] : Bytes).length ([] ++ (ps.flatMap Prod.snd).flatMap Prod.snd).length {} = .ok env := by
      rw [fill_items _ [] [0] {} he]; exact henv
    have hcl := (C24_numbers (he := e) (hf := hf)).1 _ _ told num int
    refine over (ps.map Prod.fst) p0 (bs ++ [i0]) (by simp) ?_
    refine C125_wide_announced_partial hk host c id role kill max u _ (wfm _ (by intro r hr; simp [hr])) (r := { freshReqW c id role kill max u with env := envW }) ?_
      (by intro _ _ hm; cases hm) p0 (hwf _ (by simp)) (known hr) s4.1 s4.2 (by rw [records_of_inputs]; exact phase_params _ hpc) (by dsimp only; rw [← same.contentLength, hcl]; exact big)
    rw [msgs, List.map_map]
    exact a2
  | @excess n' hr told int ok more =>
    obtain ⟨env, _, a1, _⟩ := handler_paramsW (defaultHandlersW resp) host ps (freshReqW c id role kill max u) {} [] (freshReq_aliveW ..) rfl (known hr) s2
      sameEnv_fresh texts_fresh
    have henv : fillPairs [0] (ps.flatMap Prod.snd) {} = .ok env := a1
    have hf : fill ([] ++ (ps.flatMap Prod.snd).flatMap Prod.snd ++ [0]) ([] : Bytes).length ([] ++ (ps.flatMap Prod.snd).flatMap Prod.snd).length {} = .ok env := by
      rw [fill_items _ [] [0] {} he]; exact henv
    have hcl : env.contentLength.toNat = n' := by
      obtain ⟨n1, _, _, _, _, n6, _⟩ := C24_numbers (he := e) (hf := hf)
      rcases told with ⟨h0, h1⟩ | ⟨v, h1, h2⟩
      · rw [n6 h1, h0]; rfl
      · exact n1 v _ h1 h2 int
    obtain ⟨bs1, x, bs2, x1, x2, x3⟩ := excess_at bs n' 0 (Nat.zero_le _) (by simpa using more)
    rw [Nat.zero_add] at x2 x3
    have sub : ∀ r ∈ ps.map Prod.fst ++ [p0] ++ bs1, r ∈ ps.map Prod.fst ++ [p0] ++ bs ++ [i0] := by
      intro r hr
      rw [x1]
      simp only [List.mem_append, List.mem_cons] at hr ⊢
      rcases hr with (hr | rfl | hr) | hr <;> simp_all
    have hx : x.WF ∧ x.type = 5 ∧ x.content ≠ [] := ⟨hwf x (by rw [x1]; simp), s5 x (by rw [x1]; simp)⟩
    have hb1 : ∀ r ∈ bs1, r.WF ∧ r.type = 5 ∧ r.content ≠ [] := fun r hr => ⟨hwf r (sub r (by simp [hr])), s5 r (by rw [x1]; simp [hr])⟩
    obtain ⟨r, i1, i2, i3⟩ := input_runW resp host c id role kill max u (known hr) ps s2 p0 ⟨hwf _ (by simp), s4⟩ bs1 hb1 henv (by rw [hcl]; exact ok) (by rw [hcl]; exact x2)
    refine over (ps.map Prod.fst ++ [p0] ++ bs1) x (bs2 ++ [i0]) (by rw [x1]; simp) ?_
    refine C125_wide_excess_partial hk host c id role kill max u _ (wfm _ sub) (r := r) (by rw [msgs]; exact i1) i3 x hx.1 hx.2.1 hx.2.2
      (by rw [records_of_inputs]; exact phase_stdin _ hpc p0 s4.2 bs1 fun r hr => (hb1 r hr).2.2) ?_
    rw [← i2.postBuffer, ← i2.contentLength]
    dsimp only
    rw [hcl]
    exact x3
  | content hr told int ok some_ type =>
    obtain ⟨env, _, a1, _⟩ := handler_paramsW (defaultHandlersW resp) host ps (freshReqW c id role kill max u) {} [] (freshReq_aliveW ..) rfl (known hr) s2
      sameEnv_fresh texts_fresh
    have henv : fillPairs [0] (ps.flatMap Prod.snd) {} = .ok env := a1
    have hf : fill ([] ++ (ps.flatMap Prod.snd).flatMap Prod.snd ++ [0]) ([] : Bytes).length ([] ++ (ps.flatMap Prod.snd).flatMap Prod.snd).length {} = .ok env := by
      rw [fill_items _ [] [0] {} he]; exact henv
    have hcl : env.contentLength.toNat = (bs.flatMap Record.content).length := by
      obtain ⟨n1, _, _, _, _, n6, _⟩ := C24_numbers (he := e) (hf := hf)
      rcases told with ⟨h0, h1⟩ | ⟨v, h1, h2⟩
      · rw [n6 h1, h0]; rfl
      · exact n1 v _ h1 h2 int
    have hb1 : ∀ r ∈ bs, r.WF ∧ r.type = 5 ∧ r.content ≠ [] := fun r hr => ⟨hwf r (by simp [hr]), s5 r hr⟩
    obtain ⟨r, i1, i2, i3⟩ := input_runW resp host c id role kill max u (known hr) ps s2 p0 ⟨hwf _ (by simp), s4⟩ bs hb1 henv (by rw [hcl]; exact ok)
      (by rw [hcl]; exact Nat.le_refl _)
    obtain ⟨tx, htx, hte⟩ : ∃ x, IsText x ∧ env.contentType = utf8Text x := by
      have ht := (C24_parsed (he := e) (hf := hf)).2.2
      cases hl : lastValue b!"CONTENT_TYPE" ((ps.flatMap Prod.snd).map Prod.fst) with
      | none => rw [hl] at ht; exact ⟨[], by simp [IsText], ht⟩
      | some t =>
        rw [hl] at ht
        obtain ⟨x, h1, h2⟩ := htype t hl
        exact ⟨x, h1, ht.trans h2⟩
    have hty : env.contentType ≠ b!"multipart/form-data" ∧ env.contentType ≠ b!"application/x-www-form-urlencoded" := by
      have ht := (C24_parsed (he := e) (hf := hf)).2.2
      cases hl : lastValue b!"CONTENT_TYPE" ((ps.flatMap Prod.snd).map Prod.fst) with
      | none => rw [hl] at ht; rw [ht]; exact ⟨by decide, by decide⟩
      | some t => rw [hl] at ht; rw [ht]; exact type t hl
    refine over (ps.map Prod.fst ++ [p0] ++ bs) i0 [] rfl ?_
    refine C125_wide_unknown_content_partial hk host c id role kill max u _ (wfm _ (by intro r hr; simp only [List.mem_append] at hr ⊢; exact Or.inl hr)) (r := r)
      (by rw [msgs]; exact i1) i3 i0 (hwf _ (by simp)) s7.1 s7.2
      (by rw [records_of_inputs]; exact phase_stdin _ hpc p0 s4.2 bs fun r hr => (hb1 r hr).2.2) rfl ?_ ?_ ?_
    · show r.env.postBuffer ≠ []
      rw [← i2.postBuffer]; exact some_
    · show r.env.contentType ≠ _
      exact fun hh => hty.1 ((type_wide i2.contentType htx hte b!"multipart/form-data" (by decide)).1 hh)
    · show r.env.contentType ≠ _
      exact fun hh => hty.2 ((type_wide i2.contentType htx hte b!"application/x-www-form-urlencoded" (by decide)).1 hh)

/-- `C151_told` for applications with wide characters, provided the content type is UTF-8 text. -/
theorem C151_wide_told {U : Type} {n : Nat} {resp : U → EnvW → Message → ActW U × Bool} {max : Nat} {u : U}
    {host rh ph} {tr tr' : List MEvent} {ops ops' : List TOp} {s s' : Srv (ReqW U)} {c : Nat} {id : UInt16} {rs : List Record} {tail : Bytes}
    {b : Record} {ins : List Record} {nvs : List (Bytes × Bytes)} {body page : Bytes} {status : UInt8}
    (h : SrvRun (wideServer n (defaultHandlersW resp) max u host rh ph) srvInit tr ops s) (R : SrvUp s)
    (C : Conversation ops c id rs tail b ins) (hlost : ∀ r ∈ rs, r.id ≠ 0xffff)
    (hreq : WholeRequest ins nvs body) (href : Refusal max b nvs body page status)
    (htype : ∀ t, lastValue b!"CONTENT_TYPE" nvs = some t → ∃ x, IsText x ∧ t.takeWhile (· ≠ 59) = utf8Text x)
    (h' : OwnRun (wideServer n (defaultHandlersW resp) max u host rh ph) s tr' ops' s') (hr : SrvRest (wideServer n (defaultHandlersW resp) max u host rh ph) s')
    (hv : (s'.t.conns c).valid = true) (hcall : called ⟨c, id⟩ (tr ++ tr') = []) :
    ∀ outs otail, (∀ r ∈ outs, r.WF) → Incomplete otail → (s'.t.conns c).output = stream outs ++ otail →
      otail = [] ∧ ∃ answer end_, outs.filter (fun r => r.id = id.toNat) = answer ++ [end_] ∧
        (∀ x ∈ answer, x.type = 6) ∧ ErrorAnswer page (answer.flatMap Record.content) ∧
        end_.type = 3 ∧ end_.content.take 5 = [0, 0, 0, 0, status] := by
  haveI : OfLibrary (wideServer n (defaultHandlersW resp) max u host rh ph) := .wide ..
  obtain ⟨is, kill, q, rest, fin, A, a1, a2, _, a4⟩ := C111_answered h R C hlost h' hr hv
  rw [hcall] at a2
  have his := inputs_records (List.prefix_nil.1 a2)
  rw [a1] at his
  subst his
  have hwf : ∀ r ∈ ins, r.WF := by
    intro r hr
    have : r ∈ rs.filter (fun r => r.id = id.toNat) := by rw [C.mine]; simp [hr]
    exact C.wf r (List.mem_filter.1 this).1
  obtain ⟨_, ans, en, c1, c2, c3, ⟨er, e1, e2, e3, e4, e5, e6, rfl⟩⟩ := refused_aloneW hwf hreq href htype A
  intro outs otail ho hi hs
  obtain ⟨o1, o2⟩ := a4 outs otail ho hi hs
  have hsent : (Transmits.sent q).map (·.2.1) = (ans ++ [er]).map Record.bytes := by
    show (sentOfW q.log).map (·.2.1) = _
    rw [c1]; simp
  rw [hsent] at o2
  have hid : id.toNat < 2 ^ 16 := id.toNat_lt
  have hwa : ∀ y ∈ ans ++ [er], y.WF := by
    intro y hy
    rcases List.mem_append.1 hy with hy | hy
    · exact (c2 y hy).2.2.2.1
    · simp only [List.mem_singleton] at hy
      subst hy
      exact ⟨by rw [e3]; exact hid, by rw [e4]; decide, by rw [e6]; decide⟩
  have heq := records_bytes_inj (fun x hx => ho x (List.mem_filter.1 hx).1) hwa o2
  exact ⟨o1, ans, er, heq, fun x hx => (c2 x hx).2.1, c3, e2, e5⟩

/-- For a connection with this one request on which nothing goes wrong, the bytes are exactly those, and the connection has been closed exactly if
the web server did not ask to keep it. -/
theorem C151_wide_closed {U : Type} {n : Nat} {resp : U → EnvW → Message → ActW U × Bool} {max : Nat} {u : U}
    {host rh ph} {tr tr' : List MEvent} {ops ops' : List TOp} {s s' : Srv (ReqW U)} {c : Nat} {id : UInt16} {rs : List Record} {tail : Bytes}
    {b : Record} {ins : List Record} {nvs : List (Bytes × Bytes)} {body page : Bytes} {status : UInt8}
    (h : SrvRun (wideServer n (defaultHandlersW resp) max u host rh ph) srvInit tr ops s) (R : SrvUp s)
    (C : Conversation ops c id rs tail b ins) (hone : ∀ r ∈ rs, r.id = id.toNat)
    (hreq : WholeRequest ins nvs body) (href : Refusal max b nvs body page status)
    (htype : ∀ t, lastValue b!"CONTENT_TYPE" nvs = some t → ∃ x, IsText x ∧ t.takeWhile (· ≠ 59) = utf8Text x)
    (h' : OwnRun (wideServer n (defaultHandlersW resp) max u host rh ph) s tr' ops' s') (hr : SrvRest (wideServer n (defaultHandlersW resp) max u host rh ph) s')
    (hcalm : Calm c (ops ++ ops')) (hcall : called ⟨c, id⟩ (tr ++ tr') = []) :
    ∃ answer end_, (s'.t.conns c).output = stream (answer ++ [end_]) ∧
      (∀ x ∈ answer ++ [end_], x.WF ∧ x.version = 1 ∧ x.id = id.toNat) ∧ (∀ x ∈ answer, x.type = 6) ∧
      ErrorAnswer page (answer.flatMap Record.content) ∧ end_.type = 3 ∧ end_.content.take 5 = [0, 0, 0, 0, status] ∧
      ((s'.t.conns c).valid = false ↔ (b.content.getD 2 0).toNat % 2 = 0) := by
  haveI : OfLibrary (wideServer n (defaultHandlersW resp) max u host rh ph) := .wide ..
  obtain ⟨is, kill, q, rest, fin, A, a1, a2, _, a4, a5⟩ := C111_closed h R C hone h' hr hcalm
  rw [hcall] at a2
  have his := inputs_records (List.prefix_nil.1 a2)
  rw [a1] at his
  subst his
  have hwf : ∀ r ∈ ins, r.WF := by
    intro r hr
    have : r ∈ rs.filter (fun r => r.id = id.toNat) := by rw [C.mine]; simp [hr]
    exact C.wf r (List.mem_filter.1 this).1
  obtain ⟨f1, ans, en, c1, c2, c3, ⟨er, e1, e2, e3, e4, e5, e6, rfl⟩⟩ := refused_aloneW hwf hreq href htype A
  obtain ⟨_, _, hk, _⟩ := A
  have hsent : (Transmits.sent q).flatMap (·.2.1) = stream (ans ++ [er]) := by
    show (sentOfW q.log).flatMap (·.2.1) = _
    rw [c1]
    simp [stream, List.flatMap_map]
  rw [hsent] at a4
  have hid : id.toNat < 2 ^ 16 := id.toNat_lt
  refine ⟨ans, er, a4, ?_, fun x hx => (c2 x hx).2.1, c3, e2, e5, ?_⟩
  · intro y hy
    rcases List.mem_append.1 hy with hy | hy
    · exact ⟨(c2 y hy).2.2.2.1, (c2 y hy).1, (c2 y hy).2.2.1⟩
    · simp only [List.mem_singleton] at hy
      subst hy
      exact ⟨⟨by rw [e3]; exact hid, by rw [e4]; decide, by rw [e6]; decide⟩, e1, e3⟩
  · rw [a5, ← hk]
    exact ⟨fun x => x.2, fun x => ⟨f1, x⟩⟩

end Fcgi.Props
