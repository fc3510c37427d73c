import Verif.Props.AbortedWide
import Verif.Props.LaterWide
import Verif.Props.Turns
/-! # C154 for applications with wide characters -/
namespace Fcgi.Props
open Fcgi.Spec Fcgi.Model

/-- The records `l` are an answer: records of STDOUT and STDERR with what was written, `w`, and END_REQUEST with status 0. -/
def OneAnswerW (w : List (Bool × SOp UInt32)) (l : List Record) : Prop :=
  ∃ answer end_, l = answer ++ [end_] ∧ (∀ x ∈ answer, x.type = 6 ∨ x.type = 7) ∧
    (answer.filter (fun x => x.type = 6)).flatMap Record.content = (writtenOn false w).flatMap (writtenBy utf8Text) ∧
    (answer.filter (fun x => x.type = 7)).flatMap Record.content = (writtenOn true w).flatMap (writtenBy utf8Text) ∧
    end_.type = 3 ∧ end_.content.take 5 = [0, 0, 0, 0, 0]

/-- The records `l` are the answers to the forms, one after the other: each is what the application writes for an environment that says what the form
says. -/
inductive AnswersToW (app : EnvW → List (Bool × SOp UInt32)) : List SentForm → List Record → Prop where
  | nil : AnswersToW app [] []
  | cons {f fs env l ls} (T : TellsW f.nvs f.fields f.files env) (A : OneAnswerW (app env) l) (h : AnswersToW app fs ls) : AnswersToW app (f :: fs) (l ++ ls)

theorem answersTo_endsW {app} {fs : List SentForm} {l : List Record} (h : AnswersToW app fs l) : l.countP (fun r => r.type = 3) = fs.length := by
  induction h with
  | nil => rfl
  | cons T A h ih =>
    obtain ⟨answer, en, rfl, h1, _, _, h4, _⟩ := A
    rw [List.countP_append, List.countP_append, ih, List.countP_eq_zero.2 (by
      intro x hx
      rcases h1 x hx with t | t <;> simp [t])]
    simp [h4]
    omega

section
variable {U : Type} {n : Nat} {resp : U → EnvW → Message → ActW U × Bool} {app : EnvW → List (Bool × SOp UInt32)} {max : Nat} {u : U} {host : Host}
  {rh ph : Nat → UInt8} {c : Nat} {id : UInt16}

/-- What requests on their own send, when all of them are forms. -/
theorem answered_formsW (happ : ∀ env m, (resp u env m).1.ops = app env ∧ (resp u env m).2 = true) (hplain : ∀ env e, noEnc (writtenOn e (app env)))
    {tr : List MEvent} (hcall : called ⟨c, id⟩ tr = []) : ∀ (fs : List SentForm) {out : List Bytes}, (∀ f ∈ fs, f.Good max ∧ ∀ env, TellsW f.nvs f.fields f.files env → ∀ o ∈ app env, WritesText o.2) → (∀ f ∈ fs, ∀ r ∈ f.ins, r.WF) →
    Answered (wideServer n (defaultHandlersW resp) max u host rh ph) c id tr (convsOf fs) out →
    ∃ l : List Record, out = l.map Record.bytes ∧ (∀ x ∈ l, x.WF ∧ x.id = id.toNat) ∧ AnswersToW app fs l := by
  intro fs
  induction fs with
  | nil => intro out _ _ h; cases h; exact ⟨[], rfl, by simp, .nil⟩
  | cons f fs ih =>
    intro out hg hwf h
    obtain ⟨is, kill, q, rest, fin, out', ha, hi, hc, h', rfl⟩ : ∃ is kill q rest fin out', Alone (wideServer n (defaultHandlersW resp) max u host rh ph) c id f.b is kill q rest fin ∧
        records is = f.ins ∧ List.Sublist (callbacks is) (called ⟨c, id⟩ tr) ∧
        Answered (wideServer n (defaultHandlersW resp) max u host rh ph) c id tr (convsOf fs) out' ∧ out = (Transmits.sent q).map (·.2.1) ++ out' := by
      cases h with
      | cons ha hi hc hf h => exact ⟨_, _, _, _, _, _, ha, hi, hc, h, rfl⟩
    rw [hcall] at hc
    have his := inputs_records (List.sublist_nil.1 hc)
    rw [hi] at his
    subst his
    have G := (hg f (by simp)).1
    obtain ⟨env, T, _, _, before, ans, en, c1, ⟨er, e1, e2, e3, e4, e5, e6, rfl⟩, c3, c4, c5, c6⟩ :=
      form_aloneW happ (hwf f (by simp)) G.role G.whole G.form G.told G.max G.int ha
    obtain ⟨ls, rfl, l1, l2⟩ := ih (fun g hg' => hg g (by simp [hg'])) (fun g hg' => hwf g (by simp [hg'])) h'
    have hid : id.toNat < 2 ^ 16 := id.toNat_lt
    refine ⟨(ans ++ [er]) ++ ls, ?_, ?_, .cons T ⟨ans, er, rfl, fun x hx => (good_wf (c4 x hx)).2.2.2.1, c5 (hplain _ _) (text_on ((hg f (by simp)).2 env T)), c6 (hplain _ _) (text_on ((hg f (by simp)).2 env T)), e2, e5⟩ l2⟩
    · rw [List.map_append ]
      congr 1
      show (sentOfW q.log).map (·.2.1) = _
      rw [c1, sentOf_appendW, c3]
      simp [sentOfW]
    · intro x hx
      rcases List.mem_append.1 hx with hx | hx
      · rcases List.mem_append.1 hx with hx | hx
        · exact ⟨(good_wf (c4 x hx)).1, (good_wf (c4 x hx)).2.2.1⟩
        · simp only [List.mem_singleton] at hx
          subst hx
          exact ⟨⟨by rw [e3]; exact hid, by rw [e4]; decide, by rw [e6]; decide⟩, e3⟩
      · exact l1 x hx

variable {tr : List MEvent} {ops : List TOp} {s : Srv (ReqW U)} {fs : List SentForm}

/-- At rest: the records on the open connection are the answers. -/
theorem turns_answeredW (happ : ∀ env m, (resp u env m).1.ops = app env ∧ (resp u env m).2 = true) (hplain : ∀ env e, noEnc (writtenOn e (app env)))
    (hg : ∀ f ∈ fs, f.Good max ∧ ∀ env, TellsW f.nvs f.fields f.files env → ∀ o ∈ app env, WritesText o.2) {rs tail} (h : SrvRun (wideServer n (defaultHandlersW resp) max u host rh ph) srvInit tr ops s)
    (D : Dialogue ops c id rs tail (convsOf fs)) (hlost : ∀ r ∈ rs, r.id ≠ 0xffff) (ha : Apart ⟨c, id⟩ tr) (R : SrvUp s)
    (hr : SrvRest (wideServer n (defaultHandlersW resp) max u host rh ph) s) (hv : (s.t.conns c).valid = true) (hcall : called ⟨c, id⟩ tr = []) :
    ∃ l : List Record, AnswersToW app fs l ∧
      ∀ outs otail, (∀ r ∈ outs, r.WF) → Incomplete otail → (s.t.conns c).output = stream outs ++ otail →
        otail = [] ∧ outs.filter (fun r => r.id = id.toNat) = l := by
  haveI : OfLibrary (wideServer n (defaultHandlersW resp) max u host rh ph) := .wide ..
  obtain ⟨I, hin⟩ := rest_idle h R hr
  obtain ⟨out, hA, ho⟩ := C129_complete h D ha I hlost hv (hin c hv).2 (hin c hv).1
  obtain ⟨l, rfl, l1, l2⟩ := answered_formsW happ hplain hcall fs hg (dialogue_ins D) hA
  refine ⟨l, l2, fun outs otail hw hi hs => ?_⟩
  obtain ⟨o1, o2⟩ := ho outs otail hw hi hs
  exact ⟨o1, records_bytes_inj (fun x hx => hw x (List.mem_filter.1 hx).1) (fun y hy => (l1 y hy).1) o2⟩

/-- A web server that waits for the server to come to rest takes turns (C129). -/
theorem inTurn_turnsW (happ : ∀ env m, (resp u env m).1.ops = app env ∧ (resp u env m).2 = true) (hplain : ∀ env e, noEnc (writtenOn e (app env)))
    (T : InTurn (wideServer n (defaultHandlersW resp) max u host rh ph) c id fs tr ops s) (hg : ∀ f ∈ fs, f.Good max ∧ ∀ env, TellsW f.nvs f.fields f.files env → ∀ o ∈ app env, WritesText o.2)
    (hv : (s.t.conns c).valid = true) (hcall : called ⟨c, id⟩ tr = []) :
    Turns (wideServer n (defaultHandlersW resp) max u host rh ph) c id (convsOf fs) tr ops s := by
  haveI : OfLibrary (wideServer n (defaultHandlersW resp) max u host rh ph) := .wide ..
  induction T with
  | first h D _ => exact .first h D
  | @next fs f tr0 ops0 s0 tr ops s rs tail T R hr h D hlost ih =>
    have H0 := T.run
    have hv0 : (s0.t.conns c).valid = true := trun_valid ops ops0 s0.t s.t (srv_parts H0).t (srv_parts (run_later H0 h)).t hv
    rw [called_append] at hcall
    have hc0 := (List.append_eq_nil_iff.1 hcall).1
    have hg0 : ∀ f ∈ fs, f.Good max ∧ ∀ env, TellsW f.nvs f.fields f.files env → ∀ o ∈ app env, WritesText o.2 := fun f hf => hg f (by simp [hf])
    have T0 := ih hg0 hv0 hc0
    obtain ⟨_, _, ha⟩ := C129_turns T0
    obtain ⟨rs0, tail0, D0, hl0⟩ := T.dialogue
    obtain ⟨I, hin⟩ := rest_idle H0 R hr
    obtain ⟨l, hA, ho⟩ := turns_answeredW happ hplain hg0 H0 D0 hl0 ha R hr hv0 hc0
    obtain ⟨outs, otail, p1, p2, p3⟩ := parse_exists _ (D0.whole H0) _ (List.flatMap_def ▸ C17_output_prefix _ _ _ (srv_parts H0).t c)
    obtain ⟨o1, o2⟩ := ho outs otail p1 p2 p3
    subst o1
    rw [List.append_nil] at p3
    unfold convsOf at D ⊢
    rw [List.map_append] at D ⊢
    exact .next T0 I hv0 (hin c hv0).2 (hin c hv0).1 p1 p3 (by unfold endRecords; rw [o2, answersTo_endsW hA]; simp [convsOf]) h D

variable {tr' : List MEvent} {ops' : List TOp} {s' : Srv (ReqW U)}

/-- For an application with wide characters, which writes text. Any number of forms, one after the other, with the same id on the same connection, among any other requests; each but the first is sent when
the server has come to rest.  When it has come to rest after the last one and the connection is open, the records for the id on the connection are the
answers to all the forms, in order: for each form what the application writes for an environment that says what this form says - nothing of the forms
before it - and END_REQUEST with status 0. -/
theorem C154_wide_answered (happ : ∀ env m, (resp u env m).1.ops = app env ∧ (resp u env m).2 = true) (hplain : ∀ env e, noEnc (writtenOn e (app env)))
    (T : InTurn (wideServer n (defaultHandlersW resp) max u host rh ph) c id fs tr ops s) (hg : ∀ f ∈ fs, f.Good max ∧ ∀ env, TellsW f.nvs f.fields f.files env → ∀ o ∈ app env, WritesText o.2) (R : SrvUp s)
    (h' : OwnRun (wideServer n (defaultHandlersW resp) max u host rh ph) s tr' ops' s') (hr : SrvRest (wideServer n (defaultHandlersW resp) max u host rh ph) s')
    (hv : (s'.t.conns c).valid = true) (hcall : called ⟨c, id⟩ (tr ++ tr') = []) :
    ∃ l : List Record, AnswersToW app fs l ∧
      ∀ outs otail, (∀ r ∈ outs, r.WF) → Incomplete otail → (s'.t.conns c).output = stream outs ++ otail →
        otail = [] ∧ outs.filter (fun r => r.id = id.toNat) = l := by
  haveI : OfLibrary (wideServer n (defaultHandlersW resp) max u host rh ph) := .wide ..
  have T' := T.own h'
  obtain ⟨rs, tail, D, hl⟩ := T'.dialogue
  obtain ⟨_, _, ha⟩ := C129_turns (inTurn_turnsW happ hplain T' hg hv hcall)
  exact turns_answeredW happ hplain hg T'.run D hl ha (own_running h' R) hr hv hcall



/-- The connection stays open. -/
theorem inTurn_keptW (happ : ∀ env m, (resp u env m).1.ops = app env ∧ (resp u env m).2 = true) (hplain : ∀ env e, noEnc (writtenOn e (app env)))
    (T : InTurn (wideServer n (defaultHandlersW resp) max u host rh ph) c id fs tr ops s) (hg : ∀ f ∈ fs, f.Good max ∧ ∀ env, TellsW f.nvs f.fields f.files env → ∀ o ∈ app env, WritesText o.2)
    (hcalm : Calm c ops) (hcall : called ⟨c, id⟩ tr = []) (hkeep : ∀ f ∈ fs, (f.b.content.getD 2 0).toNat % 2 = 1)
    (hone : ∀ ops0 opsx rs tail fs0, ops = ops0 ++ opsx → Dialogue ops0 c id rs tail (convsOf fs0) → ∀ r ∈ rs, r.id = id.toNat) :
    Turns (wideServer n (defaultHandlersW resp) max u host rh ph) c id (convsOf fs) tr ops s ∧ (s.t.conns c).valid = true := by
  haveI : OfLibrary (wideServer n (defaultHandlersW resp) max u host rh ph) := .wide ..
  have keep : ∀ {fs : List SentForm}, (∀ f ∈ fs, (f.b.content.getD 2 0).toNat % 2 = 1) → ∀ x ∈ convsOf fs, (x.1.content.getD 2 0).toNat % 2 = 1 := by
    intro fs h x hx
    obtain ⟨f, hf, rfl⟩ := List.mem_map.1 hx
    exact h f hf
  induction T with
  | first h D _ =>
    have T1 : Turns (wideServer n (defaultHandlersW resp) max u host rh ph) c id _ _ _ _ := .first h D
    obtain ⟨_, _, ha⟩ := C129_turns T1
    exact ⟨T1, (C129_kept h D ha (hone _ [] _ _ _ (by simp) D) (keep hkeep) hcalm).1⟩
  | @next fs f tr0 ops0 s0 tr ops s rs tail T R hr h D hlost ih =>
    have H0 := T.run
    have hc := hcall
    rw [called_append] at hc
    have hc0 := (List.append_eq_nil_iff.1 hc).1
    have hg0 : ∀ f ∈ fs, f.Good max ∧ ∀ env, TellsW f.nvs f.fields f.files env → ∀ o ∈ app env, WritesText o.2 := fun f hf => hg f (by simp [hf])
    obtain ⟨T0, hv0⟩ := ih hg0 (calm_left hcalm) hc0 (fun f hf => hkeep f (by simp [hf]))
      (fun a b rs tail fs0 e D => hone a (b ++ ops) rs tail fs0 (by rw [e, List.append_assoc]) D)
    obtain ⟨_, _, ha⟩ := C129_turns T0
    obtain ⟨rs0, tail0, D0, hl0⟩ := T.dialogue
    obtain ⟨I, hin⟩ := rest_idle H0 R hr
    obtain ⟨l, hA, ho⟩ := turns_answeredW happ hplain hg0 H0 D0 hl0 ha R hr hv0 hc0
    obtain ⟨outs, otail, p1, p2, p3⟩ := parse_exists _ (D0.whole H0) _ (List.flatMap_def ▸ C17_output_prefix _ _ _ (srv_parts H0).t c)
    obtain ⟨o1, o2⟩ := ho outs otail p1 p2 p3
    subst o1
    rw [List.append_nil] at p3
    have T1 : Turns (wideServer n (defaultHandlersW resp) max u host rh ph) c id (convsOf (fs ++ [f])) (tr0 ++ tr) (ops0 ++ ops) s := by
      have D' := D
      unfold convsOf at D' ⊢
      rw [List.map_append] at D' ⊢
      exact .next T0 I hv0 (hin c hv0).2 (hin c hv0).1 p1 p3 (by unfold endRecords; rw [o2, answersTo_endsW hA]; simp [convsOf]) h D'
    obtain ⟨H1, _, ha1⟩ := C129_turns T1
    exact ⟨T1, (C129_kept H1 D ha1 (hone _ [] _ _ _ (by simp) D) (keep hkeep) hcalm).1⟩

/-- If the connection is used for these forms only, the web server asks to keep it in all of them, and nothing goes wrong on it, then it is open, and
the answers are all its bytes. -/
theorem C154_wide_kept (happ : ∀ env m, (resp u env m).1.ops = app env ∧ (resp u env m).2 = true) (hplain : ∀ env e, noEnc (writtenOn e (app env)))
    (T : InTurn (wideServer n (defaultHandlersW resp) max u host rh ph) c id fs tr ops s) (hg : ∀ f ∈ fs, f.Good max ∧ ∀ env, TellsW f.nvs f.fields f.files env → ∀ o ∈ app env, WritesText o.2) (R : SrvUp s)
    (h' : OwnRun (wideServer n (defaultHandlersW resp) max u host rh ph) s tr' ops' s') (hr : SrvRest (wideServer n (defaultHandlersW resp) max u host rh ph) s')
    (hcalm : Calm c (ops ++ ops')) (hcall : called ⟨c, id⟩ (tr ++ tr') = [])
    (hkeep : ∀ f ∈ fs, (f.b.content.getD 2 0).toNat % 2 = 1) (hall : arrived c ops = stream (fs.flatMap fun f => f.b :: f.ins)) :
    (s'.t.conns c).valid = true ∧ ∃ l : List Record, AnswersToW app fs l ∧ (∀ x ∈ l, x.WF ∧ x.id = id.toNat) ∧ (s'.t.conns c).output = stream l := by
  haveI : OfLibrary (wideServer n (defaultHandlersW resp) max u host rh ph) := .wide ..
  have T' := T.own h'
  obtain ⟨rs, tail, D, hl⟩ := T'.dialogue
  have hall' : arrived c (ops ++ ops') = stream (fs.flatMap fun f => f.b :: f.ins) := by rw [arrived_append, own_arrived h', List.append_nil]; exact hall
  obtain ⟨T1, hv⟩ := inTurn_keptW happ hplain T' hg hcalm hcall hkeep fun _ _ _ _ _ e D0 => only_forms D D0 e hall'
  obtain ⟨H1, _, ha⟩ := C129_turns T1
  obtain ⟨I, hin⟩ := rest_idle H1 (own_running h' R) hr
  obtain ⟨out, hA, ho⟩ := C129_complete H1 D ha I hl hv (hin c hv).2 (hin c hv).1
  obtain ⟨l, rfl, l1, l2⟩ := answered_formsW happ hplain hcall fs hg (dialogue_ins D) hA
  refine ⟨hv, l, l2, l1, ?_⟩
  have A := srv_parts H1
  have hp := C17_nothing_lost _ _ _ A.t c hv (hin c hv).2
  have hpe : pendingOf c s'.t = [] := by simp [pendingOf, pending, I.queue.1, I.queue.2]
  rw [hpe, List.flatMap_nil, List.append_nil] at hp
  obtain ⟨outs, otail, p1, p2, p3⟩ := parse_exists _ (D.whole H1) _ (List.flatMap_def ▸ C17_output_prefix _ _ _ A.t c)
  have hq := hp
  rw [p3, List.flatMap_def] at hq
  obtain ⟨h8, _⟩ := parse_all _ (D.whole H1) outs otail p1 p2 hq
  have ho2 := (ho outs otail p1 p2 p3).2
  rw [outs_for id outs p1 _ h8] at ho2
  have hself : ((sentTo c (ops ++ ops')).map (·.1)).filter (fun d => frameId d = id.toNat) = (sentTo c (ops ++ ops')).map (·.1) := by
    rw [List.filter_eq_self]
    intro d hd
    obtain ⟨x, hx, rfl⟩ := List.mem_map.1 hd
    simpa using sent_mine H1 D (only_forms (opsx := []) D D (by simp) hall') x hx
  rw [hself] at ho2
  rw [hp, List.flatMap_def, ho2]
  rfl

end

/-! An example: any number of copies of a form, each sent when the one before has been answered. -/

def turnFormW : SentForm := ⟨laterBegin, formInsW, formPairsW.map Prod.fst, b!"a=1&b=%C3%A9", [(b!"a", b!"1"), (b!"b", [0xc3, 0xa9])], []⟩

theorem turnForm_goodW : turnFormW.Good 100 := by
  refine ⟨Or.inl (by decide), ?_, .urlencoded (t := b!"application/x-www-form-urlencoded") (by decide) (by decide) formTextW_demo,
    Or.inr ⟨b!"12", by decide, by decide, by unfold IsDigit; decide, by decide⟩, by decide, by decide⟩
  show WholeRequest formInsW (formPairsW.map Prod.fst) b!"a=1&b=%C3%A9"
  exact ⟨[(demoRec 4 (formPairsW.flatMap Prod.snd), formPairsW)], demoRec 4 [], [demoRec 5 b!"a=1&b", demoRec 5 b!"=%C3%A9"], demoRec 5 [], rfl,
    by intro p hp; simp only [List.mem_singleton] at hp; subst hp; exact formWholeW, by simp, ⟨rfl, rfl⟩,
    by intro b hb; simp only [List.mem_cons, List.not_mem_nil, or_false] at hb; rcases hb with rfl | rfl <;> exact ⟨rfl, by decide⟩, by decide, ⟨rfl, rfl⟩⟩

def turnBytesW (k : Nat) : Bytes := stream ((List.replicate k turnFormW).flatMap fun f => f.b :: f.ins)

theorem turnBytes_succW (k : Nat) : turnBytesW (k + 1) = turnBytesW k ++ turnBytesW 1 := by
  unfold turnBytesW
  rw [List.replicate_succ', List.flatMap_append]
  simp [stream]

theorem turn_recordsW : ∀ r ∈ laterBegin :: formInsW, r.WF ∧ r.id = 7 := by
  intro r hr
  simp only [formInsW, laterBegin, List.mem_cons, List.not_mem_nil, or_false] at hr
  rcases hr with rfl | rfl | rfl | rfl | rfl | rfl <;> exact ⟨by unfold Record.WF; decide, rfl⟩

theorem turn_allW {k : Nat} : ∀ r ∈ (List.replicate k turnFormW).flatMap fun f => f.b :: f.ins, r.WF ∧ r.id = 7 := by
  intro r hr
  obtain ⟨f, hf, hr⟩ := List.mem_flatMap.1 hr
  rw [List.eq_of_mem_replicate hf] at hr
  exact turn_recordsW r hr

theorem turn_dialogueW {k : Nat} {ops : List TOp} (h : arrived 3 ops = turnBytesW k) :
    Dialogue ops 3 7 ((List.replicate k turnFormW).flatMap fun f => f.b :: f.ins) [] (convsOf (List.replicate k turnFormW)) := by
  have mem : ∀ x ∈ convsOf (List.replicate k turnFormW), x = (laterBegin, formInsW) := by
    intro x hx
    obtain ⟨f, hf, rfl⟩ := List.mem_map.1 hx
    rw [List.eq_of_mem_replicate hf]
    rfl
  refine ⟨fun r hr => (turn_allW r hr).1, Or.inl (by simp), by rw [h, List.append_nil]; rfl, by decide, ?_, ?_, ?_, ?_, ?_, ?_⟩
  · intro r hr h0; rw [(turn_allW r hr).2] at h0; cases h0
  · unfold convsOf
    rw [List.flatMap_map]
    apply List.filter_eq_self.2
    intro r hr; rw [(turn_allW r hr).2]; rfl
  · intro x hx; rw [mem x hx]; rfl
  · intro x hx r hr
    rw [mem x hx] at hr
    simp only [formInsW, List.mem_cons, List.not_mem_nil, or_false] at hr
    rcases hr with rfl | rfl | rfl | rfl | rfl <;> decide
  · intro x hx; rw [mem x hx]; simp [laterBegin, demoRec]
  · intro x hx r hr h4 h0
    rw [mem x hx] at hr
    simp only [formInsW, List.mem_cons, List.not_mem_nil, or_false] at hr
    rcases hr with rfl | rfl | rfl | rfl | rfl
    · exact ⟨_, formWholeW⟩
    · exact absurd rfl h0
    all_goals exact absurd h4 (by decide)

theorem turn_novaluesW {k : Nat} {ops : List TOp} (ha : ∀ c, arrived c ops = if c = 3 then turnBytesW k else []) : NoValues ops := by
  intro c
  by_cases hc : c = 3
  · subst hc
    have D := turn_dialogueW (k := k) (ops := ops) (by rw [ha, if_pos rfl])
    exact ⟨_, _, D.wf, D.rest, D.bytes, fun r hr h0 h9 => absurd h9 (D.app r hr h0)⟩
  · exact ⟨[], [], by simp, Or.inl (by simp), by rw [ha, if_neg hc]; rfl, by simp⟩

/-- The form arrives once more. -/
theorem turn_arrivesW {tr : List MEvent} {ops : List TOp} {s : Srv (ReqW Unit)} {k : Nat} (H : SrvRun formServerW srvInit tr ops s) (R : SrvUp s) (hn : NoCaller s.m)
    (hc : Calm 3 ops) (ha : ∀ c, arrived c ops = if c = 3 then turnBytesW k else []) :
    ∃ s1, SrvRun formServerW s ([] ++ []) ([] ++ [.arrive 3 (turnBytesW 1)]) s1 ∧ SrvUp s1 ∧ NoCaller s1.m ∧ Calm 3 (ops ++ ([] ++ [.arrive 3 (turnBytesW 1)])) ∧
      ∀ c, arrived c (ops ++ ([] ++ [.arrive 3 (turnBytesW 1)])) = if c = 3 then turnBytesW (k + 1) else [] := by
  refine ⟨_, .step (.refl s) (.peer (.arrive 3 (turnBytesW 1)) rfl rfl), ⟨R.live, R.term, R.stop⟩, hn, hc.append (by simp [Calm]), ?_⟩
  intro c
  rw [arrived_append, ha c]
  by_cases h : c = 3
  · subst h
    rw [if_pos rfl, if_pos rfl, turnBytes_succW k]
    simp [arrived]
  · have : ¬ 3 = c := fun e => h e.symm
    simp [arrived, h, this]

/-- For every number of forms there is a run in which they are sent in turn, and the server has come to rest after the last. -/
theorem turn_runsW (k : Nat) : ∃ tr ops s, InTurn formServerW 3 7 (List.replicate (k + 1) turnFormW) tr ops s ∧ SrvUp s ∧ SrvRest formServerW s ∧ NoCaller s.m ∧
    Calm 3 ops ∧ called ⟨3, 7⟩ tr = [] ∧ ∀ c, arrived c ops = if c = 3 then turnBytesW (k + 1) else [] := by
  have finish : ∀ {k tr ops s}, InTurn formServerW 3 7 (List.replicate (k + 1) turnFormW) tr ops s → SrvUp s → NoCaller s.m → Calm 3 ops →
      called ⟨3, 7⟩ tr = [] → (∀ c, arrived c ops = if c = 3 then turnBytesW (k + 1) else []) →
      ∃ tr ops s, InTurn formServerW 3 7 (List.replicate (k + 1) turnFormW) tr ops s ∧ SrvUp s ∧ SrvRest formServerW s ∧ NoCaller s.m ∧
        Calm 3 ops ∧ called ⟨3, 7⟩ tr = [] ∧ ∀ c, arrived c ops = if c = 3 then turnBytesW (k + 1) else [] := by
    intro k tr ops s T R hn hc hcl ha
    obtain ⟨tr1, ops1, s1, q1, q2, q3⟩ := C111_reaches_calm T.run
    have hrest := (C111_rests T.run (turn_novaluesW ha)).2 tr1 ops1 s1 q1 q3
    obtain ⟨n1, n2⟩ := own_called q1 hn ⟨3, 7⟩
    exact ⟨_, _, _, T.own q1, own_running q1 R, hrest, n1, hc.append (q2 3), by rw [called_append, hcl, n2]; rfl,
      fun c => by rw [arrived_append, own_arrived q1, List.append_nil, ha c]⟩
  induction k with
  | zero =>
    obtain ⟨tr, s, H, R, hn, hcl⟩ : ∃ tr s, SrvRun formServerW srvInit tr [] s ∧ SrvUp s ∧ NoCaller s.m ∧ called ⟨3, 7⟩ tr = [] := by
      refine ⟨_, _, .step (.refl _) (.outer .start rfl rfl), ⟨⟨0, ?_⟩, rfl, rfl⟩, ?_, rfl⟩
      · decide
      · intro p k x hx
        rcases hx with hx | hx <;> cases hx
    obtain ⟨s1, h1, R1, n1, c1, a1⟩ := turn_arrivesW (k := 0) H R hn (by simp [Calm]) (by intro c; by_cases h : c = 3 <;> simp [h, arrived, turnBytesW, stream])
    have D := turn_dialogueW (k := 1) (by rw [a1, if_pos rfl])
    exact finish (.first (run_later H h1) D fun r hr => by rw [(turn_allW r hr).2]; decide) R1 n1 c1 (by rw [called_append, hcl]; rfl) a1
  | succ k ih =>
    obtain ⟨tr, ops, s, T, R, hr, hn, hc, hcl, ha⟩ := ih
    obtain ⟨s1, h1, R1, n1, c1, a1⟩ := turn_arrivesW T.run R hn hc ha
    have D := turn_dialogueW (k := k + 2) (by rw [a1, if_pos rfl])
    rw [List.replicate_succ'] at D
    have T' := InTurn.next T R hr h1 D fun r hr => by
      rw [← List.replicate_succ'] at hr
      rw [(turn_allW r hr).2]; decide
    rw [← List.replicate_succ'] at T'
    exact finish T' R1 n1 c1 (by rw [called_append, hcl]; rfl) a1

theorem formApp_plainW : ∀ env e, noEnc (writtenOn e (formAppW env)) := by
  intro env e op ho
  simp only [formAppW, writtenOn, List.mem_map, List.mem_filter, List.mem_cons, List.not_mem_nil, or_false] at ho
  obtain ⟨x, ⟨rfl | rfl, _⟩, rfl⟩ := ho <;> simp

theorem turnText : ∀ env, TellsW turnFormW.nvs turnFormW.fields turnFormW.files env → ∀ o ∈ formAppW env, WritesText o.2 := by
  intro env T o ho
  simp only [formAppW, formPostsW T, List.mem_cons, List.not_mem_nil, or_false] at ho
  rcases ho with rfl | rfl
  · intro c hc
    simp only [List.flatMap_cons, List.flatMap_nil, List.mem_append, List.mem_cons, List.not_mem_nil, or_false] at hc
    rcases hc with (rfl | rfl) | rfl | rfl <;> exact Or.inl (by decide)
  · intro c hc
    simp only [List.flatMap_cons, List.flatMap_nil, List.mem_append, List.mem_cons, List.not_mem_nil, or_false] at hc
    rcases hc with rfl | rfl <;> exact Or.inl (by decide)

/-- However many forms are sent in this way, the server answers all of them over the one connection. -/
example (k : Nat) : ∃ tr ops s, InTurn formServerW 3 7 (List.replicate (k + 1) turnFormW) tr ops s ∧ SrvRest formServerW s ∧ (s.t.conns 3).valid = true ∧
    ∃ l, AnswersToW formAppW (List.replicate (k + 1) turnFormW) l ∧ l.countP (fun r => r.type = 3) = k + 1 ∧ (s.t.conns 3).output = stream l := by
  obtain ⟨tr, ops, s, T, R, hr, hn, hc, hcl, ha⟩ := turn_runsW k
  obtain ⟨hv, l, l1, _, l2⟩ := C154_wide_kept (app := formAppW) (fun _ _ => ⟨rfl, rfl⟩) formApp_plainW T
    (fun f hf => by rw [List.eq_of_mem_replicate hf]; exact ⟨turnForm_goodW, turnText⟩) R (.refl s) hr (by rw [List.append_nil]; exact hc) (by rw [List.append_nil]; exact hcl)
    (fun f hf => by rw [List.eq_of_mem_replicate hf]; decide) (by rw [ha, if_pos rfl]; rfl)
  exact ⟨tr, ops, s, T, hr, hv, l, l1, by rw [answersTo_endsW l1, List.length_replicate], l2⟩

end Fcgi.Props
