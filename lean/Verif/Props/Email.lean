import Verif.Spec.Email
import Verif.Props.Curl
import Verif.Props.Sql
/-! # C114, C115: email objects -/
namespace Fcgi.Props
open Fcgi Fcgi.Model Fcgi.Spec

/-! ## Narrow emails -/

def toK : EmailOp UInt8 → List KOp
  | .insert s => [.insert s]
  | .put c => [.put c]
  | .flush => [.flush]
  | .setEnc e => [.setEnc e]
  | .to_ _ => []
  | .sender _ => []

theorem kexpected_email (ops : List (EmailOp UInt8)) : ∀ (e : Enc) (acc : Bytes),
    kexpected e acc (ops.flatMap toK) = acc ++ emailText (encode1 charTable) e ops := by
  induction ops with
  | nil => intro e acc; simp [kexpected, emailText]
  | cons op ops ih =>
    intro e acc
    cases op <;> simp [toK, kexpected, emailText, ih, List.flatMap_cons]

def setTo {α : Type} (x : List α) : EmailOp α → List α
  | .to_ a => a
  | _ => x

def setSender {α : Type} (x : List α) : EmailOp α → List α
  | .sender a => a
  | _ => x

theorem lastTo_cons {α : Type} (ops : List (EmailOp α)) : lastTo ops = ops.foldl setTo [] := by
  have : ∀ (ops : List (EmailOp α)) (x : List α),
      ((ops.filterMap fun op => match op with | .to_ a => some a | _ => none).getLast?).getD x = ops.foldl setTo x := by
    intro ops
    induction ops with
    | nil => intro x; rfl
    | cons op ops ih =>
      intro x
      cases op <;> simp only [List.filterMap_cons, List.foldl_cons, setTo]
      case to_ a => rw [← ih a, List.getLast?_cons]; rfl
      all_goals exact ih x
  exact this ops []

theorem lastSender_cons {α : Type} (ops : List (EmailOp α)) : lastSender ops = ops.foldl setSender [] := by
  have : ∀ (ops : List (EmailOp α)) (x : List α),
      ((ops.filterMap fun op => match op with | .sender a => some a | _ => none).getLast?).getD x = ops.foldl setSender x := by
    intro ops
    induction ops with
    | nil => intro x; rfl
    | cons op ops ih =>
      intro x
      cases op <;> simp only [List.filterMap_cons, List.foldl_cons, setSender]
      case sender a => rw [← ih a, List.getLast?_cons]; rfl
      all_goals exact ih x
  exact this ops []

/-- An email that has not been queued is a chunk buffer and two addresses. -/
theorem nemail_run (fuel : Nat) (ops : List (EmailOp UInt8)) : ∀ (m m' : NEmail) (k : ChunkBuf), m.post = .writing k →
    m.run fuel ops = .ok m' → (∃ k', m'.post = .writing k' ∧ krun fuel k (ops.flatMap toK) = .ok k') ∧
      m'.to_ = ops.foldl setTo m.to_ ∧ m'.sender = ops.foldl setSender m.sender := by
  induction ops with
  | nil => intro m m' k hk h; cases h; exact ⟨⟨k, hk, rfl⟩, rfl, rfl⟩
  | cons op ops ih =>
    intro m m' k hk h
    simp only [NEmail.run, Res.bind_eq_ok] at h
    obtain ⟨m1, h1, h2⟩ := h
    have go : ∀ (kop : KOp) (k1 : ChunkBuf), toK op = [kop] → kop.step fuel k = .ok k1 → m1 = { m with post := .writing k1 } →
        setTo m.to_ op = m.to_ → setSender m.sender op = m.sender →
        (∃ k', m'.post = .writing k' ∧ krun fuel k ((op :: ops).flatMap toK) = .ok k') ∧
          m'.to_ = (op :: ops).foldl setTo m.to_ ∧ m'.sender = (op :: ops).foldl setSender m.sender := by
      intro kop k1 e1 e2 e3 e4 e5
      subst e3
      obtain ⟨⟨k', f1, f2⟩, f3, f4⟩ := ih _ m' k1 rfl h2
      refine ⟨⟨k', f1, ?_⟩, by rw [List.foldl_cons, e4]; exact f3, by rw [List.foldl_cons, e5]; exact f4⟩
      rw [List.flatMap_cons, e1]; simp only [List.cons_append, List.nil_append, krun, e2, Res.ok_bind]; exact f2
    cases op with
    | to_ a => cases h1; obtain ⟨⟨k', f1, f2⟩, f3, f4⟩ := ih { m with to_ := a } m' k hk h2; exact ⟨⟨k', f1, f2⟩, f3, f4⟩
    | sender a => cases h1; obtain ⟨⟨k', f1, f2⟩, f3, f4⟩ := ih { m with sender := a } m' k hk h2; exact ⟨⟨k', f1, f2⟩, f3, f4⟩
    | setEnc e => unfold NEmail.step at h1; simp only [hk] at h1; cases h1; exact go (.setEnc e) _ rfl rfl rfl rfl rfl
    | insert s =>
      unfold NEmail.step at h1; simp only [hk, Res.bind_eq_ok] at h1
      obtain ⟨k1, e1, e2⟩ := h1; cases e2; exact go (.insert s) k1 rfl e1 rfl rfl rfl
    | put c =>
      unfold NEmail.step at h1; simp only [hk, Res.bind_eq_ok] at h1
      obtain ⟨k1, e1, e2⟩ := h1; cases e2; exact go (.put c) k1 rfl e1 rfl rfl rfl
    | flush =>
      unfold NEmail.step at h1; simp only [hk, Res.bind_eq_ok] at h1
      obtain ⟨k1, e1, e2⟩ := h1; cases e2; exact go .flush k1 rfl e1 rfl rfl rfl

/-- The state of a narrow email after any use. -/
theorem nemail_data (fuel : Nat) (ops : List (EmailOp UInt8)) (m : NEmail) (h : NEmail.fresh.run fuel ops = .ok m) :
    m.to_ = lastTo ops ∧ m.sender = lastSender ops ∧ m.destroy = .ok () ∧ ∃ body pending enc, body ≠ [] ∧ m.close = .ok (body, pending, enc) ∧
      recorded body = emailText (encode1 charTable) .none ops := by
  obtain ⟨⟨k, h1, h2⟩, h3, h4⟩ := nemail_run fuel ops _ _ freshChunks rfl h
  have hk := C16_run fuel (ops.flatMap toK) [] freshChunks k C16_init h2
  rw [kexpected_email, List.nil_append] at hk
  obtain ⟨k', e1, _⟩ := emptyBufferK_spec hk
  obtain ⟨body, pending, f1, f2, _, f4, _⟩ := close_spec hk ⟨.writing k, 0, [], none, .fresh⟩ rfl
  have hc : m.close = .ok (body, pending, k'.enc) := by
    unfold NEmail.close; rw [h1]
    unfold CurlObj.close at f1
    simp only [e1, Res.ok_bind, Res.pure_eq, Res.ok.injEq, Prod.mk.injEq] at f1 ⊢
    exact ⟨f1.1, f1.2, trivial⟩
  refine ⟨by rw [h3, lastTo_cons]; rfl, by rw [h4, lastSender_cons]; rfl, ?_, body, pending, k'.enc, f4, hc, f2⟩
  unfold NEmail.destroy; rw [hc]; rfl

/-- C114: whatever is done with a narrow email before it is queued, in whatever order, what is queued are the addresses set last and the
text written. -/
theorem C114_narrow (fuel : Nat) (ops : List (EmailOp UInt8)) (m : NEmail) (h : NEmail.fresh.run fuel ops = .ok m) :
    ∃ e m', m.data = .ok (e, m') ∧ e.to_ = lastTo ops ∧ e.sender = lastSender ops ∧
      e.body.flatten = emailText (encode1 charTable) .none ops := by
  obtain ⟨h1, h2, _, body, pending, enc, _, h4, h5⟩ := nemail_data fuel ops m h
  refine ⟨_, _, by unfold NEmail.data; rw [h4]; rfl, h1, h2, ?_⟩
  rw [← h5]; unfold chunkTexts recorded; rw [List.flatten_eq_flatMap, List.flatMap_map]; rfl

/-! ## Wide emails -/

theorem utf8Put_converter : Utf8Converter utf8Put := fun c h1 h2 => (utf8Put_scalar c).1 <| by
  simp only [isScalar, UInt32.lt_iff_toNat_lt, UInt32.le_iff_toNat_le]
  have h1 := h1; have h2 := h2
  simp only [UInt32.reduceToNat]; omega

/-- Text that is Unicode. -/
def EmailUni : EmailOp UInt32 → Prop
  | .insert s => ∀ c ∈ s, Scalar c
  | .put c => Scalar c
  | .to_ a => ∀ c ∈ a, Scalar c
  | .sender a => ∀ c ∈ a, Scalar c
  | _ => True

def toKW : EmailOp UInt32 → List KWOp
  | .insert s => [.insert s]
  | .put c => [.put c]
  | .flush => [.flush]
  | .setEnc e => [.setEnc e]
  | .to_ _ => []
  | .sender _ => []

theorem utf8Text_append (a b : List UInt32) : utf8Text (a ++ b) = utf8Text a ++ utf8Text b := by simp [utf8Text]

theorem kwexpected_email (ops : List (EmailOp UInt32)) : ∀ (e : Enc) (acc : Bytes),
    kwexpected e acc (ops.flatMap toKW) = acc ++ utf8Text (emailText (encode1 wideTable) e ops) := by
  induction ops with
  | nil => intro e acc; simp [kwexpected, emailText, utf8Text]
  | cons op ops ih =>
    intro e acc
    cases op <;> simp [toKW, kwexpected, emailText, ih, List.flatMap_cons, utf8Text]

theorem scalar_text {t : List UInt32} (h : ∀ c ∈ t, Scalar c) : utf8Out t = some (utf8Text t) := by
  rw [utf8Out_iff]
  refine ⟨fun c hc => ?_, rfl⟩
  have := h c hc
  unfold Scalar at this
  simp only [isScalar, UInt32.lt_iff_toNat_lt, UInt32.le_iff_toNat_le, UInt32.reduceToNat]; omega

theorem wemail_run (ops : List (EmailOp UInt32)) (hs : ∀ op ∈ ops, EmailUni op) : ∀ (m : WEmail) (k' : WideChunks), m.open_ = true →
    kwrun utf8Put m.chunks (ops.flatMap toKW) = .ok k' →
    ∃ m', m.run ops = .ok m' ∧ m'.chunks = k' ∧ m'.open_ = true ∧
      (∀ x, m.to_ = utf8Text x → m'.to_ = utf8Text (ops.foldl setTo x)) ∧
      (∀ x, m.sender = utf8Text x → m'.sender = utf8Text (ops.foldl setSender x)) := by
  induction ops with
  | nil => intro m k' ho h; cases h; exact ⟨m, rfl, rfl, ho, fun _ h => h, fun _ h => h⟩
  | cons op ops ih =>
    intro m k' ho h
    have ih := ih fun o h => hs o (.tail _ h)
    have go : ∀ (kop : KWOp), toKW op = [kop] →
        (∀ k1, kop.step utf8Put m.chunks = .ok k1 → m.step op = .ok { m with chunks := k1 }) →
        (∀ x : List UInt32, setTo x op = x) → (∀ x : List UInt32, setSender x op = x) →
        ∃ m', m.run (op :: ops) = .ok m' ∧ m'.chunks = k' ∧ m'.open_ = true ∧
          (∀ x, m.to_ = utf8Text x → m'.to_ = utf8Text ((op :: ops).foldl setTo x)) ∧
          (∀ x, m.sender = utf8Text x → m'.sender = utf8Text ((op :: ops).foldl setSender x)) := by
      intro kop e1 e2 e3 e4
      rw [List.flatMap_cons, e1, List.cons_append, List.nil_append] at h
      simp only [kwrun, Res.bind_eq_ok] at h
      obtain ⟨k1, g1, g2⟩ := h
      obtain ⟨m', f1, f2, f3, f4, f5⟩ := ih { m with chunks := k1 } k' ho g2
      refine ⟨m', ?_, f2, f3, fun x hx => by rw [List.foldl_cons, e3]; exact f4 x hx, fun x hx => by rw [List.foldl_cons, e4]; exact f5 x hx⟩
      unfold WEmail.run; rw [e2 k1 g1]; exact f1
    cases op with
    | insert s => exact go (.insert s) rfl (fun k1 e => by unfold WEmail.step; dsimp only; rw [if_pos ho, e]; rfl) (fun _ => rfl) (fun _ => rfl)
    | put c => exact go (.put c) rfl (fun k1 e => by unfold WEmail.step; dsimp only; rw [if_pos ho, e]; rfl) (fun _ => rfl) (fun _ => rfl)
    | flush => exact go .flush rfl (fun k1 e => by unfold WEmail.step; dsimp only; rw [if_pos ho, e]; rfl) (fun _ => rfl) (fun _ => rfl)
    | setEnc e => exact go (.setEnc e) rfl (fun k1 e => by cases e; rfl) (fun _ => rfl) (fun _ => rfl)
    | to_ a =>
      obtain ⟨m', f1, f2, f3, f4, f5⟩ := ih { m with to_ := (utf8Out a).getD m.to_ } k' ho h
      exact ⟨m', f1, f2, f3, fun x _ => f4 a (by rw [scalar_text (hs _ (.head _))]; rfl), f5⟩
    | sender a =>
      obtain ⟨m', f1, f2, f3, f4, f5⟩ := ih { m with sender := (utf8Out a).getD m.sender } k' ho h
      exact ⟨m', f1, f2, f3, f4, fun x _ => f5 a (by rw [scalar_text (hs _ (.head _))]; rfl)⟩

/-- C114: the same for a wide email, in UTF-8, if all its texts are Unicode; no use of it fails. -/
theorem C114_wide_partial (ops : List (EmailOp UInt32)) (hs : ∀ op ∈ ops, EmailUni op) :
    ∃ m e m', WEmail.fresh.run ops = .ok m ∧ m.data = .ok (e, m') ∧ e.to_ = utf8Text (lastTo ops) ∧ e.sender = utf8Text (lastSender ops) ∧
      e.body.flatten = utf8Text (emailText (encode1 wideTable) .none ops) := by
  have hs' : ∀ op ∈ ops.flatMap toKW, KWScalar op := by
    intro op hop
    obtain ⟨o, ho, h⟩ := List.mem_flatMap.1 hop
    have := hs o ho
    cases o <;> simp only [toKW, List.mem_singleton, List.not_mem_nil] at h <;> subst h <;> exact this
  obtain ⟨k, e1, e2⟩ := C95_run utf8Put_converter (ops.flatMap toKW) [] freshWide hs' ⟨rfl, by simp [freshWide], by simp [freshWide], [], ⟨by simp [freshWide], rfl⟩, rfl⟩
  obtain ⟨b, f1, f2, f3⟩ := emptyBufferKW_good e2
  obtain ⟨m, g1, g2, _, g4, g5⟩ := wemail_run ops hs .fresh k rfl e1
  subst g2
  refine ⟨m, _, _, g1, by unfold WEmail.data; rw [f1]; rfl, ?_, ?_, ?_⟩
  · rw [lastTo_cons]; exact g4 [] rfl
  · rw [lastSender_cons]; exact g5 [] rfl
  · have := f2.data
    rw [kwexpected_email, List.nil_append] at this
    show (chunkTexts b).flatten = _
    refine Eq.trans ?_ this
    unfold chunkTexts recordedW; rw [List.flatten_eq_flatMap, List.flatMap_map]; rfl

/-- C114 does not hold for other addresses: one that is not Unicode text is ignored, and the email goes to the address set before. -/
theorem C114_violated (ops : List (EmailOp UInt32)) (m : WEmail) (h : WEmail.fresh.run ops = .ok m) (a : List UInt32) (ha : ¬ IsText a) :
    WEmail.fresh.run (ops ++ [.to_ a]) = .ok m ∧ WEmail.fresh.run (ops ++ [.sender a]) = .ok m := by
  have happ : ∀ (ops ops' : List (EmailOp UInt32)) (m : WEmail), m.run (ops ++ ops') = (m.run ops >>= fun m => m.run ops') := by
    intro ops ops'
    induction ops with
    | nil => intro m; rfl
    | cons op ops ih =>
      intro m
      simp only [List.cons_append, WEmail.run]
      cases m.step op with
      | ok m1 => simp only [Res.ok_bind]; exact ih m1
      | ub k => rfl
      | stuck => rfl
  have hn : utf8Out a = none := by
    cases hx : utf8Out a with
    | none => rfl
    | some b => exact absurd ((utf8Out_iff a b).1 hx).1 ha
  constructor
  all_goals
    rw [happ, h]
    simp only [Res.ok_bind, WEmail.run, WEmail.step, hn]
    rfl

/-! ## C115 -/

/-- C115, narrow: an email that has not been queued can be destroyed. -/
theorem C115_unused_partial (fuel : Nat) (ops : List (EmailOp UInt8)) (m : NEmail) (h : NEmail.fresh.run fuel ops = .ok m) :
    m.destroy = .ok () := (nemail_data fuel ops m h).2.2.1

/-- C115 does not hold for narrow emails: whatever was written, once `data()` has been called (which `Mailer::queue` does), the
destructor and any further call of `data()` use the last element of an empty list, whatever is done with the email in between. -/
theorem C115_violated (fuel : Nat) (ops more : List (EmailOp UInt8)) (m : NEmail) (h : NEmail.fresh.run fuel ops = .ok m) :
    ∃ e m', m.data = .ok (e, m') ∧ ∃ m'', m'.run fuel more = .ok m'' ∧ m''.destroy = .ub .emptyAccess ∧ m''.data = .ub .emptyAccess := by
  obtain ⟨_, _, _, body, pending, enc, _, h4, _⟩ := nemail_data fuel ops m h
  refine ⟨_, _, by unfold NEmail.data; rw [h4]; rfl, ?_⟩
  have key : ∀ (more : List (EmailOp UInt8)) (m : NEmail) (p : Nat) (en : Enc), m.post = .sent [] p en →
      ∃ m' en', m.run fuel more = .ok m' ∧ m'.post = .sent [] p en' := by
    intro more
    induction more with
    | nil => intro m p en hm; exact ⟨m, en, rfl, hm⟩
    | cons op more ih =>
      intro m p en hm
      have : ∃ m1 en1, m.step fuel op = .ok m1 ∧ m1.post = .sent [] p en1 := by
        unfold NEmail.step
        cases op <;> simp only [hm]
        case setEnc e => exact ⟨_, e, rfl, rfl⟩
        case to_ a => exact ⟨_, en, rfl, rfl⟩
        case sender a => exact ⟨_, en, rfl, rfl⟩
        all_goals exact ⟨m, en, rfl, hm⟩
      obtain ⟨m1, en1, e1, e2⟩ := this
      obtain ⟨m', en', e3, e4⟩ := ih m1 p en1 e2
      exact ⟨m', en', by unfold NEmail.run; rw [e1]; exact e3, e4⟩
  obtain ⟨m'', en', e1, e2⟩ := key more ⟨.sent [] pending enc, [], []⟩ pending enc rfl
  refine ⟨m'', e1, ?_, ?_⟩
  · unfold NEmail.destroy NEmail.close; rw [e2]; rfl
  · unfold NEmail.data NEmail.close; rw [e2]; rfl

theorem utf8Put_length (c : UInt32) (x : Bytes) (h : utf8Put c = some x) : x.length ≤ 4 := by
  unfold utf8Put at h
  dsimp only at h
  repeat' split at h
  all_goals first | (cases h; done) | (cases h; simp only [List.length_cons, List.length_nil]; omega)

/-- A call of the converter either fails, or stops at a character that does not fit. -/
theorem outRound_stops : ∀ (s : List UInt32) (room : Nat), (outRound utf8Put room s).2.2 = true ∨
    ((outRound utf8Put room s).2.1.length ≤ s.length ∧ (4 ≤ room → s ≠ [] → (outRound utf8Put room s).2.1.length < s.length)) := by
  intro s
  induction s with
  | nil => intro room; right; exact ⟨Nat.le_refl _, fun _ h => absurd rfl h⟩
  | cons c s ih =>
    intro room
    unfold outRound
    cases hc : utf8Put c with
    | none => left; rfl
    | some x =>
      dsimp only
      have hx := utf8Put_length c x hc
      split
      · right; exact ⟨Nat.le_refl _, fun h _ => by omega⟩
      · rcases ih (room - x.length) with h | ⟨h, _⟩
        · left; exact h
        · right; dsimp only; simp only [List.length_cons]; exact ⟨by omega, fun _ _ => by omega⟩

theorem outLoop_total : ∀ (fuel : Nat) (body : List Chunk) (s : List UInt32), body ≠ [] →
    (s.length + 1 < fuel ∨ (s ≠ [] ∧ s.length < fuel ∧ ∃ l, body = l ++ [⟨[], 0⟩])) → ∃ r, outLoop utf8Put fuel body s = .ok r := by
  intro fuel
  induction fuel with
  | zero => intro body s _ h; omega
  | succ fuel ih =>
    intro body s hne hf
    unfold outLoop
    rw [List.getLast?_eq_some_getLast hne]
    dsimp only
    split
    · exact ⟨_, rfl⟩
    · rename_i hfail
      split
      · exact ⟨_, rfl⟩
      · rename_i hr
        refine ih _ _ (by simp) (.inr ⟨hr, ?_, _, rfl⟩)
        rcases outRound_stops s (chunkCapacity - (body.getLast hne).size) with h | ⟨h1, h2⟩
        · exact absurd h hfail
        · rcases hf with hf | ⟨h3, h4, l, rfl⟩
          · omega
          · have := h2 (by simp [chunkCapacity]) h3
            omega

theorem emptyWide_total (k : WideChunks) : ∃ r, emptyBufferKW utf8Put k = .ok r := by
  unfold emptyBufferKW
  split
  · exact ⟨_, rfl⟩
  · have hw : withRoom k.sink ≠ [] := by
      unfold withRoom
      cases hl : k.sink.getLast? with
      | none => simp
      | some c =>
        dsimp only
        split
        · simp
        · intro h; rw [h] at hl; cases hl
    obtain ⟨⟨b, l, ok⟩, hr⟩ := outLoop_total (k.buf.length + 2) (withRoom k.sink) k.buf hw (.inl (by omega))
    rw [hr]
    cases ok <;> exact ⟨_, rfl⟩

/-- C115, wide: an email in any state, also one that has been queued, with any text in it, can be queued (again) and destroyed. -/
theorem C115_wide (m : WEmail) : m.destroy = .ok () ∧ ∃ e m', m.data = .ok (e, m') ∧ m'.destroy = .ok () ∧ ∃ e2 m2, m'.data = .ok (e2, m2) := by
  have hd : ∀ m : WEmail, m.destroy = .ok () := by
    intro m
    obtain ⟨r, hr⟩ := emptyWide_total m.chunks
    unfold WEmail.destroy; rw [hr]; rfl
  have hdata : ∀ m : WEmail, ∃ e m', m.data = .ok (e, m') := by
    intro m
    obtain ⟨r, hr⟩ := emptyWide_total m.chunks
    exact ⟨_, _, by unfold WEmail.data; rw [hr]; rfl⟩
  obtain ⟨e, m', h⟩ := hdata m
  exact ⟨hd m, e, m', h, hd m', hdata m'⟩

/-! ### Concrete emails -/

def demoEmail : List (EmailOp UInt8) :=
  [.to_ b!"a@b", .insert b!"Subject: x\n\n", .setEnc .html, .insert b!"1<2", .to_ b!"c@d", .put 10, .flush, .sender b!"e@f"]

example : (match NEmail.fresh.run 20 demoEmail with
    | .ok m => match m.data with
      | .ok (e, m') => e == ⟨b!"c@d", b!"e@f", [b!"Subject: x\n\n1&lt;2\n"]⟩ && (match m'.destroy with | .ub .emptyAccess => true | _ => false)
      | _ => false
    | _ => false) = true := by decide +kernel

def demoWEmail : List (EmailOp UInt32) := [.to_ [0x61, 0xe9], .insert [0x20ac, 10], .to_ [0xd800]]

example : (match WEmail.fresh.run demoWEmail with
    | .ok m => match m.data with
      | .ok (e, m') => e == ⟨[0x61, 0xc3, 0xa9], [], [[0xe2, 0x82, 0xac, 10]]⟩ && (match m'.destroy with | .ok () => true | _ => false)
      | _ => false
    | _ => false) = true := by decide +kernel

example : ¬ IsText [0xd800] := by unfold IsText isScalar; decide

example : ∀ op ∈ demoWEmail.take 2, EmailUni op := by
  intro op h
  simp only [demoWEmail, List.take, List.mem_cons, List.not_mem_nil, or_false] at h
  rcases h with rfl | rfl <;> (unfold EmailUni Scalar; decide)

end Fcgi.Props
