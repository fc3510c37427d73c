import Verif.Props.Aborted
import Verif.Props.ServerAgain
import Verif.Props.Later
/-! # C154: forms sent one after the other over a kept connection -/
namespace Fcgi.Props
open Fcgi.Spec Fcgi.Model

/-- A form that a web server sends: the BEGIN_REQUEST record, the records after it, and what it is about: the variables, the body, and the fields and
files in it. -/
structure SentForm where
  b : Record
  ins : List Record
  nvs : List (Bytes × Bytes)
  body : Bytes
  fields : List (Bytes × Bytes)
  files : List (Bytes × Bytes × Bytes × Bytes)

/-- The form is whole and asks for a role the library has, its length is announced and within the limit `max`. -/
structure SentForm.Good (max : Nat) (f : SentForm) : Prop where
  role : f.b.role = 1 ∨ f.b.role = 2
  whole : WholeRequest f.ins f.nvs f.body
  form : FormBody f.nvs f.body f.fields f.files
  told : LengthTold f.nvs f.body.length
  max : f.body.length ≤ max
  int : f.body.length ≤ 2147483647

def convsOf (fs : List SentForm) : List (Record × List Record) := fs.map fun f => (f.b, f.ins)

/-- A web server sends forms with the same id on the same connection, each after the first when the server has come to rest. -/
inductive InTurn {U : Type} [Transmits U] (P : SrvProg U) (c : Nat) (id : UInt16) : List SentForm → List MEvent → List TOp → Srv U → Prop where
  | first {f tr ops s rs tail} (h : SrvRun P srvInit tr ops s) (D : Dialogue ops c id rs tail (convsOf [f])) (hlost : ∀ r ∈ rs, r.id ≠ 0xffff) :
      InTurn P c id [f] tr ops s
  | next {fs f tr0 ops0 s0 tr ops s rs tail} (T : InTurn P c id fs tr0 ops0 s0) (R : SrvUp s0) (hr : SrvRest P s0) (h : SrvRun P s0 tr ops s)
      (D : Dialogue (ops0 ++ ops) c id rs tail (convsOf (fs ++ [f]))) (hlost : ∀ r ∈ rs, r.id ≠ 0xffff) :
      InTurn P c id (fs ++ [f]) (tr0 ++ tr) (ops0 ++ ops) s

/-- The records `l` are an answer: records of STDOUT and STDERR with what was written, `w`, and END_REQUEST with status 0. -/
def OneAnswer (w : List (Bool × SOp UInt8)) (l : List Record) : Prop :=
  ∃ answer end_, l = answer ++ [end_] ∧ (∀ x ∈ answer, x.type = 6 ∨ x.type = 7) ∧
    (answer.filter (fun x => x.type = 6)).flatMap Record.content = (writtenOn false w).flatMap (writtenBy _root_.id) ∧
    (answer.filter (fun x => x.type = 7)).flatMap Record.content = (writtenOn true w).flatMap (writtenBy _root_.id) ∧
    end_.type = 3 ∧ end_.content.take 5 = [0, 0, 0, 0, 0]

/-- The records `l` are the answers to the forms, one after the other: each is what the application writes for an environment that says what the form
says. -/
inductive AnswersTo (app : Env → List (Bool × SOp UInt8)) : List SentForm → List Record → Prop where
  | nil : AnswersTo app [] []
  | cons {f fs env l ls} (T : Tells f.nvs f.fields f.files env) (A : OneAnswer (app env) l) (h : AnswersTo app fs ls) : AnswersTo app (f :: fs) (l ++ ls)

theorem answersTo_ends {app} {fs : List SentForm} {l : List Record} (h : AnswersTo app fs l) : l.countP (fun r => r.type = 3) = fs.length := by
  induction h with
  | nil => rfl
  | cons T A h ih =>
    obtain ⟨answer, en, rfl, h1, _, _, h4, _⟩ := A
    rw [List.countP_append, List.countP_append, ih, List.countP_eq_zero.2 (by
      intro x hx
      rcases h1 x hx with t | t <;> simp [t])]
    simp [h4]
    omega

section
variable {U : Type} {n : Nat} {resp : U → Env → Message → Act U × Bool} {app : Env → List (Bool × SOp UInt8)} {max : Nat} {u : U} {heap : Nat → Nat → Nat → UInt8}
  {rh ph : Nat → UInt8} {c : Nat} {id : UInt16}

/-- What requests on their own send, when all of them are forms. -/
theorem answered_forms (happ : ∀ env m, (resp u env m).1.ops = app env ∧ (resp u env m).2 = true) (hplain : ∀ env e, noEnc (writtenOn e (app env)))
    {tr : List MEvent} (hcall : called ⟨c, id⟩ tr = []) : ∀ (fs : List SentForm) {out : List Bytes}, (∀ f ∈ fs, f.Good max) → (∀ f ∈ fs, ∀ r ∈ f.ins, r.WF) →
    Answered (narrowServer n (defaultHandlers resp) max u heap rh ph) c id tr (convsOf fs) out →
    ∃ l : List Record, out = l.map Record.bytes ∧ (∀ x ∈ l, x.WF ∧ x.id = id.toNat) ∧ AnswersTo app fs l := by
  intro fs
  induction fs with
  | nil => intro out _ _ h; cases h; exact ⟨[], rfl, by simp, .nil⟩
  | cons f fs ih =>
    intro out hg hwf h
    obtain ⟨is, kill, q, rest, fin, out', ha, hi, hc, h', rfl⟩ : ∃ is kill q rest fin out', Alone (narrowServer n (defaultHandlers resp) max u heap rh ph) c id f.b is kill q rest fin ∧
        records is = f.ins ∧ List.Sublist (callbacks is) (called ⟨c, id⟩ tr) ∧
        Answered (narrowServer n (defaultHandlers resp) max u heap rh ph) c id tr (convsOf fs) out' ∧ out = (Transmits.sent q).map (·.2.1) ++ out' := by
      cases h with
      | cons ha hi hc hf h => exact ⟨_, _, _, _, _, _, ha, hi, hc, h, rfl⟩
    rw [hcall] at hc
    have his := inputs_records (List.sublist_nil.1 hc)
    rw [hi] at his
    subst his
    have G := hg f (by simp)
    obtain ⟨env, T, _, _, before, ans, en, c1, ⟨er, e1, e2, e3, e4, e5, e6, rfl⟩, c3, c4, c5, c6⟩ :=
      form_alone happ (hwf f (by simp)) G.role G.whole G.form G.told G.max G.int ha
    obtain ⟨ls, rfl, l1, l2⟩ := ih (fun g hg' => hg g (by simp [hg'])) (fun g hg' => hwf g (by simp [hg'])) h'
    have hid : id.toNat < 2 ^ 16 := id.toNat_lt
    refine ⟨(ans ++ [er]) ++ ls, ?_, ?_, .cons T ⟨ans, er, rfl, fun x hx => (good_wf (c4 x hx)).2.2.2.1, c5 (hplain _ _), c6 (hplain _ _), e2, e5⟩ l2⟩
    · rw [List.map_append ]
      congr 1
      show (sentOf q.log).map (·.2.1) = _
      rw [c1, sentOf_append, c3]
      simp [sentOf]
    · intro x hx
      rcases List.mem_append.1 hx with hx | hx
      · rcases List.mem_append.1 hx with hx | hx
        · exact ⟨(good_wf (c4 x hx)).1, (good_wf (c4 x hx)).2.2.1⟩
        · simp only [List.mem_singleton] at hx
          subst hx
          exact ⟨⟨by rw [e3]; exact hid, by rw [e4]; decide, by rw [e6]; decide⟩, e3⟩
      · exact l1 x hx

variable {tr : List MEvent} {ops : List TOp} {s : Srv (Req U)} {fs : List SentForm}

theorem InTurn.run {V : Type} [Transmits V] {P : SrvProg V} {c id fs tr ops} {s : Srv V} (T : InTurn P c id fs tr ops s) : SrvRun P srvInit tr ops s := by
  induction T with
  | first h _ _ => exact h
  | next _ _ _ h _ _ ih => exact run_later ih h

theorem InTurn.dialogue {V : Type} [Transmits V] {P : SrvProg V} {c id fs tr ops} {s : Srv V} (T : InTurn P c id fs tr ops s) :
    ∃ rs tail, Dialogue ops c id rs tail (convsOf fs) ∧ ∀ r ∈ rs, r.id ≠ 0xffff := by
  cases T with
  | first _ D hl => exact ⟨_, _, D, hl⟩
  | next _ _ _ _ D hl => exact ⟨_, _, D, hl⟩

theorem dialogue_ins {ops rs tail} {fs : List SentForm} (D : Dialogue ops c id rs tail (convsOf fs)) : ∀ f ∈ fs, ∀ r ∈ f.ins, r.WF := by
  intro f hf r hr
  have : r ∈ rs.filter (fun r => r.id = id.toNat) := by
    rw [D.mine]
    exact List.mem_flatMap.2 ⟨(f.b, f.ins), List.mem_map.2 ⟨f, hf, rfl⟩, by simp [hr]⟩
  exact D.wf r (List.mem_filter.1 this).1

/-- At rest: the records on the open connection are the answers. -/
theorem turns_answered (happ : ∀ env m, (resp u env m).1.ops = app env ∧ (resp u env m).2 = true) (hplain : ∀ env e, noEnc (writtenOn e (app env)))
    (hg : ∀ f ∈ fs, f.Good max) {rs tail} (h : SrvRun (narrowServer n (defaultHandlers resp) max u heap rh ph) srvInit tr ops s)
    (D : Dialogue ops c id rs tail (convsOf fs)) (hlost : ∀ r ∈ rs, r.id ≠ 0xffff) (ha : Apart ⟨c, id⟩ tr) (R : SrvUp s)
    (hr : SrvRest (narrowServer n (defaultHandlers resp) max u heap rh ph) s) (hv : (s.t.conns c).valid = true) (hcall : called ⟨c, id⟩ tr = []) :
    ∃ l : List Record, AnswersTo app fs l ∧
      ∀ outs otail, (∀ r ∈ outs, r.WF) → Incomplete otail → (s.t.conns c).output = stream outs ++ otail →
        otail = [] ∧ outs.filter (fun r => r.id = id.toNat) = l := by
  haveI : OfLibrary (narrowServer n (defaultHandlers resp) max u heap rh ph) := .narrow ..
  obtain ⟨I, hin⟩ := rest_idle h R hr
  obtain ⟨out, hA, ho⟩ := C129_complete h D ha I hlost hv (hin c hv).2 (hin c hv).1
  obtain ⟨l, rfl, l1, l2⟩ := answered_forms happ hplain hcall fs hg (dialogue_ins D) hA
  refine ⟨l, l2, fun outs otail hw hi hs => ?_⟩
  obtain ⟨o1, o2⟩ := ho outs otail hw hi hs
  exact ⟨o1, records_bytes_inj (fun x hx => hw x (List.mem_filter.1 hx).1) (fun y hy => (l1 y hy).1) o2⟩

/-- A web server that waits for the server to come to rest takes turns (C129). -/
theorem inTurn_turns (happ : ∀ env m, (resp u env m).1.ops = app env ∧ (resp u env m).2 = true) (hplain : ∀ env e, noEnc (writtenOn e (app env)))
    (T : InTurn (narrowServer n (defaultHandlers resp) max u heap rh ph) c id fs tr ops s) (hg : ∀ f ∈ fs, f.Good max)
    (hv : (s.t.conns c).valid = true) (hcall : called ⟨c, id⟩ tr = []) :
    Turns (narrowServer n (defaultHandlers resp) max u heap rh ph) c id (convsOf fs) tr ops s := by
  haveI : OfLibrary (narrowServer n (defaultHandlers resp) max u heap rh ph) := .narrow ..
  induction T with
  | first h D _ => exact .first h D
  | @next fs f tr0 ops0 s0 tr ops s rs tail T R hr h D hlost ih =>
    have H0 := T.run
    have hv0 : (s0.t.conns c).valid = true := trun_valid ops ops0 s0.t s.t (srv_parts H0).t (srv_parts (run_later H0 h)).t hv
    rw [called_append] at hcall
    have hc0 := (List.append_eq_nil_iff.1 hcall).1
    have hg0 : ∀ f ∈ fs, f.Good max := fun f hf => hg f (by simp [hf])
    have T0 := ih hg0 hv0 hc0
    obtain ⟨_, _, ha⟩ := C129_turns T0
    obtain ⟨rs0, tail0, D0, hl0⟩ := T.dialogue
    obtain ⟨I, hin⟩ := rest_idle H0 R hr
    obtain ⟨l, hA, ho⟩ := turns_answered happ hplain hg0 H0 D0 hl0 ha R hr hv0 hc0
    obtain ⟨outs, otail, p1, p2, p3⟩ := parse_exists _ (D0.whole H0) _ (List.flatMap_def ▸ C17_output_prefix _ _ _ (srv_parts H0).t c)
    obtain ⟨o1, o2⟩ := ho outs otail p1 p2 p3
    subst o1
    rw [List.append_nil] at p3
    unfold convsOf at D ⊢
    rw [List.map_append] at D ⊢
    exact .next T0 I hv0 (hin c hv0).2 (hin c hv0).1 p1 p3 (by unfold endRecords; rw [o2, answersTo_ends hA]; simp [convsOf]) h D

theorem InTurn.own {V : Type} [Transmits V] {P : SrvProg V} [OfLibrary P] {c id fs tr ops tr' ops'} {s s' : Srv V} (T : InTurn P c id fs tr ops s) (h' : OwnRun P s tr' ops' s') :
    InTurn P c id fs (tr ++ tr') (ops ++ ops') s' := by
  have more : ∀ {ops rs tail convs}, Dialogue ops c id rs tail convs → Dialogue (ops ++ ops') c id rs tail convs := fun D =>
    { D with bytes := by rw [arrived_append, own_arrived h', List.append_nil]; exact D.bytes }
  cases T with
  | first h D hl => exact .first (own_run h h') (more D) hl
  | next T R hr h D hl =>
    rw [List.append_assoc, List.append_assoc]
    exact .next T R hr (own_run h h') (by rw [← List.append_assoc]; exact more D) hl

theorem calm_left {c : Nat} {a b : List TOp} (h : Calm c (a ++ b)) : Calm c a :=
  ⟨fun x => h.1 (List.mem_append_left _ x), fun k1 k2 x => h.2.1 k1 k2 (List.mem_append_left _ x), fun x => h.2.2 (List.mem_append_left _ x)⟩

variable {tr' : List MEvent} {ops' : List TOp} {s' : Srv (Req U)}

/-- Any number of forms, one after the other, with the same id on the same connection, among any other requests; each but the first is sent when
the server has come to rest.  When it has come to rest after the last one and the connection is open, the records for the id on the connection are the
answers to all the forms, in order: for each form what the application writes for an environment that says what this form says - nothing of the forms
before it - and END_REQUEST with status 0. -/
theorem C154_answered (happ : ∀ env m, (resp u env m).1.ops = app env ∧ (resp u env m).2 = true) (hplain : ∀ env e, noEnc (writtenOn e (app env)))
    (T : InTurn (narrowServer n (defaultHandlers resp) max u heap rh ph) c id fs tr ops s) (hg : ∀ f ∈ fs, f.Good max) (R : SrvUp s)
    (h' : OwnRun (narrowServer n (defaultHandlers resp) max u heap rh ph) s tr' ops' s') (hr : SrvRest (narrowServer n (defaultHandlers resp) max u heap rh ph) s')
    (hv : (s'.t.conns c).valid = true) (hcall : called ⟨c, id⟩ (tr ++ tr') = []) :
    ∃ l : List Record, AnswersTo app fs l ∧
      ∀ outs otail, (∀ r ∈ outs, r.WF) → Incomplete otail → (s'.t.conns c).output = stream outs ++ otail →
        otail = [] ∧ outs.filter (fun r => r.id = id.toNat) = l := by
  haveI : OfLibrary (narrowServer n (defaultHandlers resp) max u heap rh ph) := .narrow ..
  have T' := T.own h'
  obtain ⟨rs, tail, D, hl⟩ := T'.dialogue
  obtain ⟨_, _, ha⟩ := C129_turns (inTurn_turns happ hplain T' hg hv hcall)
  exact turns_answered happ hplain hg T'.run D hl ha (own_running h' R) hr hv hcall

/-- When these are all the bytes of the connection, all its records are for the id. -/
theorem only_forms {ops0 opsx : List TOp} {rs rs0 tail tail0} {fs fs0 : List SentForm} (D : Dialogue ops c id rs tail (convsOf fs))
    (D0 : Dialogue ops0 c id rs0 tail0 (convsOf fs0)) (hops : ops = ops0 ++ opsx)
    (hall : arrived c ops = stream (fs.flatMap fun f => f.b :: f.ins)) : ∀ r ∈ rs0, r.id = id.toNat := by
  have hmem : ∀ r ∈ fs.flatMap (fun f => f.b :: f.ins), r.WF ∧ r.id = id.toNat := by
    intro r hr
    have : r ∈ rs.filter (fun r => r.id = id.toNat) := by
      rw [D.mine]
      obtain ⟨f, hf, hr⟩ := List.mem_flatMap.1 hr
      exact List.mem_flatMap.2 ⟨(f.b, f.ins), List.mem_map.2 ⟨f, hf, rfl⟩, hr⟩
    obtain ⟨h1, h2⟩ := List.mem_filter.1 this
    exact ⟨D.wf r h1, by simpa using h2⟩
  have hp : stream rs0 ++ tail0 <+: ((fs.flatMap fun f => f.b :: f.ins).map Record.bytes).flatten := by
    rw [← List.flatMap_def, ← D0.bytes]
    have : arrived c ops = arrived c ops0 ++ arrived c opsx := by rw [hops, arrived_append]
    exact ⟨arrived c opsx, by rw [← this, hall]; rfl⟩
  have h7 := parse_prefix _ (fun d hd => by
    obtain ⟨r, hr, rfl⟩ := List.mem_map.1 hd
    exact Record.complete _ (hmem r hr).1) rs0 tail0 D0.wf hp
  intro r hr
  obtain ⟨l, hl⟩ := h7
  have hb : r.bytes ∈ (fs.flatMap fun f => f.b :: f.ins).map Record.bytes := by rw [← hl]; exact List.mem_append_left _ (List.mem_map.2 ⟨r, hr, rfl⟩)
  obtain ⟨r', hr', he⟩ := List.mem_map.1 hb
  have := records_bytes_inj (xs := [r']) (ys := [r]) (by simpa using (hmem r' hr').1) (by simpa using D0.wf r hr) (by simp [he])
  rw [← (List.cons.inj this).1]
  exact (hmem r' hr').2

/-- The connection stays open. -/
theorem inTurn_kept (happ : ∀ env m, (resp u env m).1.ops = app env ∧ (resp u env m).2 = true) (hplain : ∀ env e, noEnc (writtenOn e (app env)))
    (T : InTurn (narrowServer n (defaultHandlers resp) max u heap rh ph) c id fs tr ops s) (hg : ∀ f ∈ fs, f.Good max)
    (hcalm : Calm c ops) (hcall : called ⟨c, id⟩ tr = []) (hkeep : ∀ f ∈ fs, (f.b.content.getD 2 0).toNat % 2 = 1)
    (hone : ∀ ops0 opsx rs tail fs0, ops = ops0 ++ opsx → Dialogue ops0 c id rs tail (convsOf fs0) → ∀ r ∈ rs, r.id = id.toNat) :
    Turns (narrowServer n (defaultHandlers resp) max u heap rh ph) c id (convsOf fs) tr ops s ∧ (s.t.conns c).valid = true := by
  haveI : OfLibrary (narrowServer n (defaultHandlers resp) max u heap rh ph) := .narrow ..
  have keep : ∀ {fs : List SentForm}, (∀ f ∈ fs, (f.b.content.getD 2 0).toNat % 2 = 1) → ∀ x ∈ convsOf fs, (x.1.content.getD 2 0).toNat % 2 = 1 := by
    intro fs h x hx
    obtain ⟨f, hf, rfl⟩ := List.mem_map.1 hx
    exact h f hf
  induction T with
  | first h D _ =>
    have T1 : Turns (narrowServer n (defaultHandlers resp) max u heap rh ph) c id _ _ _ _ := .first h D
    obtain ⟨_, _, ha⟩ := C129_turns T1
    exact ⟨T1, (C129_kept h D ha (hone _ [] _ _ _ (by simp) D) (keep hkeep) hcalm).1⟩
  | @next fs f tr0 ops0 s0 tr ops s rs tail T R hr h D hlost ih =>
    have H0 := T.run
    have hc := hcall
    rw [called_append] at hc
    have hc0 := (List.append_eq_nil_iff.1 hc).1
    have hg0 : ∀ f ∈ fs, f.Good max := fun f hf => hg f (by simp [hf])
    obtain ⟨T0, hv0⟩ := ih hg0 (calm_left hcalm) hc0 (fun f hf => hkeep f (by simp [hf]))
      (fun a b rs tail fs0 e D => hone a (b ++ ops) rs tail fs0 (by rw [e, List.append_assoc]) D)
    obtain ⟨_, _, ha⟩ := C129_turns T0
    obtain ⟨rs0, tail0, D0, hl0⟩ := T.dialogue
    obtain ⟨I, hin⟩ := rest_idle H0 R hr
    obtain ⟨l, hA, ho⟩ := turns_answered happ hplain hg0 H0 D0 hl0 ha R hr hv0 hc0
    obtain ⟨outs, otail, p1, p2, p3⟩ := parse_exists _ (D0.whole H0) _ (List.flatMap_def ▸ C17_output_prefix _ _ _ (srv_parts H0).t c)
    obtain ⟨o1, o2⟩ := ho outs otail p1 p2 p3
    subst o1
    rw [List.append_nil] at p3
    have T1 : Turns (narrowServer n (defaultHandlers resp) max u heap rh ph) c id (convsOf (fs ++ [f])) (tr0 ++ tr) (ops0 ++ ops) s := by
      have D' := D
      unfold convsOf at D' ⊢
      rw [List.map_append] at D' ⊢
      exact .next T0 I hv0 (hin c hv0).2 (hin c hv0).1 p1 p3 (by unfold endRecords; rw [o2, answersTo_ends hA]; simp [convsOf]) h D'
    obtain ⟨H1, _, ha1⟩ := C129_turns T1
    exact ⟨T1, (C129_kept H1 D ha1 (hone _ [] _ _ _ (by simp) D) (keep hkeep) hcalm).1⟩

/-- When all the records that came are for the id, everything sent on the connection is for it. -/
theorem sent_mine {U : Type} [Transmits U] {P : SrvProg U} [OfLibrary P] {tr ops s rs tail} {convs : List (Record × List Record)} (h : SrvRun P srvInit tr ops s)
    (D : Dialogue ops c id rs tail convs) (hone : ∀ r ∈ rs, r.id = id.toNat) : ∀ d ∈ sentTo c ops, frameId d.1 = id.toNat := by
  have A := srv_parts h
  intro d hd
  rcases sent_owner h c _ hd with ⟨h1, y, hy, hh⟩ | ⟨r, id', m, h1, h2⟩
  · exfalso
    have hy' : y ∈ msgsOf c s.t := by
      unfold msgsOf; rw [List.mem_filter]; exact ⟨hy, by simp [hh]⟩
    obtain ⟨⟨k, _, hfr⟩, _⟩ := C09_fragmentation P.recvHeap ops s.t A.t c rs tail D.wf D.rest D.bytes
    have key : y ∈ (rs.take k).map (messageFor c) → False := by
      intro hm
      obtain ⟨r, hr, rfl⟩ := List.mem_map.1 hm
      have hr' := List.mem_of_mem_take hr
      simp only [messageFor, RequestId.mk.injEq, true_and] at hh
      rw [hone r hr'] at hh
      exact D.ids.1 (by simpa using hh)
    rcases hfr with hfr | ⟨_, hfr⟩
    · rw [hfr] at hy'; exact key hy'
    · rw [hfr] at hy'
      rcases List.mem_append.1 hy' with hy' | hy'
      · exact key hy'
      · simp only [List.mem_singleton] at hy'
        subst hy'
        simp [goneMsg, badFcgiId] at hh
  · rw [h2]
    obtain ⟨h0, hf⟩ := created_ids A.m _ _ _ h1
    have hm := created_routed A.m h1
    obtain ⟨w, hw⟩ := (key_prefix h c id' h0 hf rs tail D.wf D.rest D.bytes).1
    have : m ∈ (rs.filter (fun r => r.id = id'.toNat)).map recordMsg := by rw [← hw]; simp [hm]
    obtain ⟨y, hy, _⟩ := List.mem_map.1 this
    obtain ⟨y1, y2⟩ := List.mem_filter.1 hy
    rw [decide_eq_true_eq] at y2
    show id'.toNat = id.toNat
    rw [← y2]; exact hone y y1

/-- If the connection is used for these forms only, the web server asks to keep it in all of them, and nothing goes wrong on it, then it is open, and
the answers are all its bytes. -/
theorem C154_kept (happ : ∀ env m, (resp u env m).1.ops = app env ∧ (resp u env m).2 = true) (hplain : ∀ env e, noEnc (writtenOn e (app env)))
    (T : InTurn (narrowServer n (defaultHandlers resp) max u heap rh ph) c id fs tr ops s) (hg : ∀ f ∈ fs, f.Good max) (R : SrvUp s)
    (h' : OwnRun (narrowServer n (defaultHandlers resp) max u heap rh ph) s tr' ops' s') (hr : SrvRest (narrowServer n (defaultHandlers resp) max u heap rh ph) s')
    (hcalm : Calm c (ops ++ ops')) (hcall : called ⟨c, id⟩ (tr ++ tr') = [])
    (hkeep : ∀ f ∈ fs, (f.b.content.getD 2 0).toNat % 2 = 1) (hall : arrived c ops = stream (fs.flatMap fun f => f.b :: f.ins)) :
    (s'.t.conns c).valid = true ∧ ∃ l : List Record, AnswersTo app fs l ∧ (∀ x ∈ l, x.WF ∧ x.id = id.toNat) ∧ (s'.t.conns c).output = stream l := by
  haveI : OfLibrary (narrowServer n (defaultHandlers resp) max u heap rh ph) := .narrow ..
  have T' := T.own h'
  obtain ⟨rs, tail, D, hl⟩ := T'.dialogue
  have hall' : arrived c (ops ++ ops') = stream (fs.flatMap fun f => f.b :: f.ins) := by rw [arrived_append, own_arrived h', List.append_nil]; exact hall
  obtain ⟨T1, hv⟩ := inTurn_kept happ hplain T' hg hcalm hcall hkeep fun _ _ _ _ _ e D0 => only_forms D D0 e hall'
  obtain ⟨H1, _, ha⟩ := C129_turns T1
  obtain ⟨I, hin⟩ := rest_idle H1 (own_running h' R) hr
  obtain ⟨out, hA, ho⟩ := C129_complete H1 D ha I hl hv (hin c hv).2 (hin c hv).1
  obtain ⟨l, rfl, l1, l2⟩ := answered_forms happ hplain hcall fs hg (dialogue_ins D) hA
  refine ⟨hv, l, l2, l1, ?_⟩
  have A := srv_parts H1
  have hp := C17_nothing_lost _ _ _ A.t c hv (hin c hv).2
  have hpe : pendingOf c s'.t = [] := by simp [pendingOf, pending, I.queue.1, I.queue.2]
  rw [hpe, List.flatMap_nil, List.append_nil] at hp
  obtain ⟨outs, otail, p1, p2, p3⟩ := parse_exists _ (D.whole H1) _ (List.flatMap_def ▸ C17_output_prefix _ _ _ A.t c)
  have hq := hp
  rw [p3, List.flatMap_def] at hq
  obtain ⟨h8, _⟩ := parse_all _ (D.whole H1) outs otail p1 p2 hq
  have ho2 := (ho outs otail p1 p2 p3).2
  rw [outs_for id outs p1 _ h8] at ho2
  have hself : ((sentTo c (ops ++ ops')).map (·.1)).filter (fun d => frameId d = id.toNat) = (sentTo c (ops ++ ops')).map (·.1) := by
    rw [List.filter_eq_self]
    intro d hd
    obtain ⟨x, hx, rfl⟩ := List.mem_map.1 hd
    simpa using sent_mine H1 D (only_forms (opsx := []) D D (by simp) hall') x hx
  rw [hself] at ho2
  rw [hp, List.flatMap_def, ho2]
  rfl

end

/-! An example: any number of copies of a form, each sent when the one before has been answered. -/

def turnForm : SentForm := ⟨laterBegin, formIns, formPairs.map Prod.fst, b!"a=1&b=%20x", [(b!"a", b!"1"), (b!"b", b!" x")], []⟩

theorem turnForm_good : turnForm.Good 100 := by
  refine ⟨Or.inl (by decide), ?_, .urlencoded (t := b!"application/x-www-form-urlencoded") (by decide) (by decide) formText_demo,
    Or.inr ⟨b!"10", by decide, by decide, by unfold IsDigit; decide, by decide⟩, by decide, by decide⟩
  show WholeRequest formIns (formPairs.map Prod.fst) b!"a=1&b=%20x"
  exact ⟨[(demoRec 4 (formPairs.flatMap Prod.snd), formPairs)], demoRec 4 [], [demoRec 5 b!"a=1&b", demoRec 5 b!"=%20x"], demoRec 5 [], rfl,
    by intro p hp; simp only [List.mem_singleton] at hp; subst hp; exact formWhole, by simp, ⟨rfl, rfl⟩,
    by intro b hb; simp only [List.mem_cons, List.not_mem_nil, or_false] at hb; rcases hb with rfl | rfl <;> exact ⟨rfl, by decide⟩, by decide, ⟨rfl, rfl⟩⟩

def turnBytes (k : Nat) : Bytes := stream ((List.replicate k turnForm).flatMap fun f => f.b :: f.ins)

theorem turnBytes_succ (k : Nat) : turnBytes (k + 1) = turnBytes k ++ turnBytes 1 := by
  unfold turnBytes
  rw [List.replicate_succ', List.flatMap_append]
  simp [stream]

theorem turn_records : ∀ r ∈ laterBegin :: formIns, r.WF ∧ r.id = 7 := by
  intro r hr
  simp only [formIns, laterBegin, List.mem_cons, List.not_mem_nil, or_false] at hr
  rcases hr with rfl | rfl | rfl | rfl | rfl | rfl <;> exact ⟨by unfold Record.WF; decide, rfl⟩

theorem turn_all {k : Nat} : ∀ r ∈ (List.replicate k turnForm).flatMap fun f => f.b :: f.ins, r.WF ∧ r.id = 7 := by
  intro r hr
  obtain ⟨f, hf, hr⟩ := List.mem_flatMap.1 hr
  rw [List.eq_of_mem_replicate hf] at hr
  exact turn_records r hr

theorem turn_dialogue {k : Nat} {ops : List TOp} (h : arrived 3 ops = turnBytes k) :
    Dialogue ops 3 7 ((List.replicate k turnForm).flatMap fun f => f.b :: f.ins) [] (convsOf (List.replicate k turnForm)) := by
  have mem : ∀ x ∈ convsOf (List.replicate k turnForm), x = (laterBegin, formIns) := by
    intro x hx
    obtain ⟨f, hf, rfl⟩ := List.mem_map.1 hx
    rw [List.eq_of_mem_replicate hf]
    rfl
  refine ⟨fun r hr => (turn_all r hr).1, Or.inl (by simp), by rw [h, List.append_nil]; rfl, by decide, ?_, ?_, ?_, ?_, ?_, ?_⟩
  · intro r hr h0; rw [(turn_all r hr).2] at h0; cases h0
  · unfold convsOf
    rw [List.flatMap_map]
    apply List.filter_eq_self.2
    intro r hr; rw [(turn_all r hr).2]; rfl
  · intro x hx; rw [mem x hx]; rfl
  · intro x hx r hr
    rw [mem x hx] at hr
    simp only [formIns, List.mem_cons, List.not_mem_nil, or_false] at hr
    rcases hr with rfl | rfl | rfl | rfl | rfl <;> decide
  · intro x hx; rw [mem x hx]; simp [laterBegin, demoRec]
  · intro x hx r hr h4 h0
    rw [mem x hx] at hr
    simp only [formIns, List.mem_cons, List.not_mem_nil, or_false] at hr
    rcases hr with rfl | rfl | rfl | rfl | rfl
    · exact ⟨_, formWhole⟩
    · exact absurd rfl h0
    all_goals exact absurd h4 (by decide)

theorem turn_novalues {k : Nat} {ops : List TOp} (ha : ∀ c, arrived c ops = if c = 3 then turnBytes k else []) : NoValues ops := by
  intro c
  by_cases hc : c = 3
  · subst hc
    have D := turn_dialogue (k := k) (ops := ops) (by rw [ha, if_pos rfl])
    exact ⟨_, _, D.wf, D.rest, D.bytes, fun r hr h0 h9 => absurd h9 (D.app r hr h0)⟩
  · exact ⟨[], [], by simp, Or.inl (by simp), by rw [ha, if_neg hc]; rfl, by simp⟩

/-- The form arrives once more. -/
theorem turn_arrives {tr : List MEvent} {ops : List TOp} {s : Srv (Req Unit)} {k : Nat} (H : SrvRun formServer srvInit tr ops s) (R : SrvUp s) (hn : NoCaller s.m)
    (hc : Calm 3 ops) (ha : ∀ c, arrived c ops = if c = 3 then turnBytes k else []) :
    ∃ s1, SrvRun formServer s ([] ++ []) ([] ++ [.arrive 3 (turnBytes 1)]) s1 ∧ SrvUp s1 ∧ NoCaller s1.m ∧ Calm 3 (ops ++ ([] ++ [.arrive 3 (turnBytes 1)])) ∧
      ∀ c, arrived c (ops ++ ([] ++ [.arrive 3 (turnBytes 1)])) = if c = 3 then turnBytes (k + 1) else [] := by
  refine ⟨_, .step (.refl s) (.peer (.arrive 3 (turnBytes 1)) rfl rfl), ⟨R.live, R.term, R.stop⟩, hn, hc.append (by simp [Calm]), ?_⟩
  intro c
  rw [arrived_append, ha c]
  by_cases h : c = 3
  · subst h
    rw [if_pos rfl, if_pos rfl, turnBytes_succ k]
    simp [arrived]
  · have : ¬ 3 = c := fun e => h e.symm
    simp [arrived, h, this]

/-- For every number of forms there is a run in which they are sent in turn, and the server has come to rest after the last. -/
theorem turn_runs (k : Nat) : ∃ tr ops s, InTurn formServer 3 7 (List.replicate (k + 1) turnForm) tr ops s ∧ SrvUp s ∧ SrvRest formServer s ∧ NoCaller s.m ∧
    Calm 3 ops ∧ called ⟨3, 7⟩ tr = [] ∧ ∀ c, arrived c ops = if c = 3 then turnBytes (k + 1) else [] := by
  have finish : ∀ {k tr ops s}, InTurn formServer 3 7 (List.replicate (k + 1) turnForm) tr ops s → SrvUp s → NoCaller s.m → Calm 3 ops →
      called ⟨3, 7⟩ tr = [] → (∀ c, arrived c ops = if c = 3 then turnBytes (k + 1) else []) →
      ∃ tr ops s, InTurn formServer 3 7 (List.replicate (k + 1) turnForm) tr ops s ∧ SrvUp s ∧ SrvRest formServer s ∧ NoCaller s.m ∧
        Calm 3 ops ∧ called ⟨3, 7⟩ tr = [] ∧ ∀ c, arrived c ops = if c = 3 then turnBytes (k + 1) else [] := by
    intro k tr ops s T R hn hc hcl ha
    obtain ⟨tr1, ops1, s1, q1, q2, q3⟩ := C111_reaches_calm T.run
    have hrest := (C111_rests T.run (turn_novalues ha)).2 tr1 ops1 s1 q1 q3
    obtain ⟨n1, n2⟩ := own_called q1 hn ⟨3, 7⟩
    exact ⟨_, _, _, T.own q1, own_running q1 R, hrest, n1, hc.append (q2 3), by rw [called_append, hcl, n2]; rfl,
      fun c => by rw [arrived_append, own_arrived q1, List.append_nil, ha c]⟩
  induction k with
  | zero =>
    obtain ⟨tr, s, H, R, hn, hcl⟩ : ∃ tr s, SrvRun formServer srvInit tr [] s ∧ SrvUp s ∧ NoCaller s.m ∧ called ⟨3, 7⟩ tr = [] := by
      refine ⟨_, _, .step (.refl _) (.outer .start rfl rfl), ⟨⟨0, ?_⟩, rfl, rfl⟩, ?_, rfl⟩
      · decide
      · intro p k x hx
        rcases hx with hx | hx <;> cases hx
    obtain ⟨s1, h1, R1, n1, c1, a1⟩ := turn_arrives (k := 0) H R hn (by simp [Calm]) (by intro c; by_cases h : c = 3 <;> simp [h, arrived, turnBytes, stream])
    have D := turn_dialogue (k := 1) (by rw [a1, if_pos rfl])
    exact finish (.first (run_later H h1) D fun r hr => by rw [(turn_all r hr).2]; decide) R1 n1 c1 (by rw [called_append, hcl]; rfl) a1
  | succ k ih =>
    obtain ⟨tr, ops, s, T, R, hr, hn, hc, hcl, ha⟩ := ih
    obtain ⟨s1, h1, R1, n1, c1, a1⟩ := turn_arrives T.run R hn hc ha
    have D := turn_dialogue (k := k + 2) (by rw [a1, if_pos rfl])
    rw [List.replicate_succ'] at D
    have T' := InTurn.next T R hr h1 D fun r hr => by
      rw [← List.replicate_succ'] at hr
      rw [(turn_all r hr).2]; decide
    rw [← List.replicate_succ'] at T'
    exact finish T' R1 n1 c1 (by rw [called_append, hcl]; rfl) a1

theorem formApp_plain : ∀ env e, noEnc (writtenOn e (formApp env)) := by
  intro env e op ho
  simp only [formApp, writtenOn, List.mem_map, List.mem_filter, List.mem_cons, List.not_mem_nil, or_false] at ho
  obtain ⟨x, ⟨rfl | rfl, _⟩, rfl⟩ := ho <;> simp

/-- However many forms are sent in this way, the server answers all of them over the one connection. -/
example (k : Nat) : ∃ tr ops s, InTurn formServer 3 7 (List.replicate (k + 1) turnForm) tr ops s ∧ SrvRest formServer s ∧ (s.t.conns 3).valid = true ∧
    ∃ l, AnswersTo formApp (List.replicate (k + 1) turnForm) l ∧ l.countP (fun r => r.type = 3) = k + 1 ∧ (s.t.conns 3).output = stream l := by
  obtain ⟨tr, ops, s, T, R, hr, hn, hc, hcl, ha⟩ := turn_runs k
  obtain ⟨hv, l, l1, _, l2⟩ := C154_kept (app := formApp) (fun _ _ => ⟨rfl, rfl⟩) formApp_plain T
    (fun f hf => by rw [List.eq_of_mem_replicate hf]; exact turnForm_good) R (.refl s) hr (by rw [List.append_nil]; exact hc) (by rw [List.append_nil]; exact hcl)
    (fun f hf => by rw [List.eq_of_mem_replicate hf]; decide) (by rw [ha, if_pos rfl]; rfl)
  exact ⟨tr, ops, s, T, hr, hv, l, l1, by rw [answersTo_ends l1, List.length_replicate], l2⟩

end Fcgi.Props
