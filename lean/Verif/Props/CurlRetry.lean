import Verif.Props.Curl
/-! # Property C143: a request that is queued again -/
namespace Fcgi.Props
open Fcgi Fcgi.Model Fcgi.Spec

/-- Attempts at a request, each a `prepare()` (Curler::queue) and the calls of the read callback until the transfer ended. -/
def attempts : CurlObj → List (List Nat) → Res CurlObj
  | c, [] => .ok c
  | c, rooms :: more => do
    let c ← c.prepare
    let (_, c) ← c.reads rooms
    attempts c more

/-- None of the attempts has taken all of the data it was offered. -/
def LeftOver : Nat → List Nat → Prop
  | _, [] => True
  | len, n :: ns => n < len ∧ LeftOver (len - n / 4096 * 4096) ns

/-- What is offered after attempts that have taken so many bytes each: the blocks of 4096 bytes that have been taken are gone. -/
def offered : Bytes → List Nat → Bytes
  | data, [] => data
  | data, n :: ns => offered (data.drop (n / 4096 * 4096)) ns

/-- The object after `prepare()` or after some reading. -/
structure Offers (c : CurlObj) (D : Bytes) : Prop where
  ex : ∃ front last e, c.post = .sent (front ++ [last]) last.size e ∧ (∀ x ∈ front, x.size = 4096 ∧ x.data.length = 4096) ∧
    last.size < 4096 ∧ last.size ≤ last.data.length ∧ recorded (front ++ [last]) = D

theorem offers_written {D : Bytes} {k : ChunkBuf} (hk : KInv D k) (c : CurlObj) (hc : c.post = .writing k) (hne : D ≠ []) :
    ∃ c', c.prepare = .ok c' ∧ Offers c' D ∧ c'.counter = 0 ∧ c'.told.map Prod.fst = some (some D.length) := by
  obtain ⟨c', body, pending, e1, e2, e3, e4, e5, e6, e7, e8, e9, e10⟩ := prepare_spec hk c hc
  refine ⟨c', e1, ?_, e3 hne, by rw [e4]; simp [toldSize, hne]⟩
  obtain ⟨k', f1, f2, f3, f4, f5⟩ := emptyBufferK_spec hk
  have hp : c'.post = .sent k'.body k'.buf.length k.enc := by
    have hcl : c.close = .ok (k'.body, k'.buf.length) := by unfold CurlObj.close; rw [hc]; simp only [f1, Res.ok_bind, Res.pure_eq]
    have henc : c.enc = k.enc := by unfold CurlObj.enc; rw [hc]
    unfold CurlObj.prepare at e1
    rw [hcl] at e1
    simp only [Res.ok_bind, Res.pure_eq, Res.ok.injEq] at e1
    rw [← e1, henc]
  have hb : body = k'.body := by rw [hp] at e2; simp at e2; exact e2.1.symm
  have hlt : k'.buf.length < 4096 := by
    have := f2.len
    simp only [chunkCapacity] at this
    rcases Nat.lt_or_eq_of_le this with h | h
    · exact h
    · exfalso
      unfold emptyBufferK at f1
      dsimp only at f1
      split at f1
      · simp at f1; rw [← f1] at h; simp at h
      · rename_i hn
        simp at f1
        rw [← f1] at h
        exact hn h
  refine ⟨k'.sink.front, ⟨k'.buf, k'.sink.lastSize⟩, k.enc, ?_, f2.front, ?_, ?_, ?_⟩
  · rw [hp, ← f4]; rfl
  · dsimp only; rw [f4]; exact hlt
  · dsimp only; rw [f4]; exact Nat.le_refl _
  · rw [← e7, hb]; rfl

theorem recorded_drop : ∀ (n : Nat) (front tail : List Chunk), (∀ x ∈ front, x.size = 4096 ∧ x.data.length = 4096) → n ≤ front.length →
    recorded ((front ++ tail).drop n) = (recorded (front ++ tail)).drop (4096 * n) := by
  intro n
  induction n with
  | zero => intro front tail _ _; simp
  | succ n ih =>
    intro front tail h hn
    cases front with
    | nil => simp at hn
    | cons x xs =>
      have hx := h x (by simp)
      have := ih xs tail (fun y hy => h y (by simp [hy])) (by simpa using hn)
      simp only [List.cons_append, List.drop_succ_cons]
      rw [this]
      show _ = List.drop (4096 * (n + 1)) (List.take x.size x.data ++ recorded (xs ++ tail))
      rw [List.drop_append, List.drop_eq_nil_of_le (as := List.take x.size x.data) (by rw [List.length_take]; omega), List.nil_append, List.length_take, hx.1, hx.2,
        show 4096 * (n + 1) - min 4096 4096 = 4096 * n by omega]

/-- Reading without coming to the end, then preparing again. -/
theorem offers_again {c : CurlObj} {D : Bytes} (h : Offers c D) (h0 : c.counter = 0) (rooms : List Nat) (hr : ∀ r ∈ rooms, r < 2 ^ 32) (hs : rooms.sum < D.length) :
    ∃ outs c' c'', c.reads rooms = .ok (outs, c') ∧ outs.flatten = D.take rooms.sum ∧ c'.prepare = .ok c'' ∧ Offers c'' (D.drop (rooms.sum / 4096 * 4096)) ∧ c''.counter = 0 ∧
      c''.told.map Prod.fst = some (some (D.length - rooms.sum / 4096 * 4096)) := by
  obtain ⟨front, last, e, h1, h2, h3, h4, h5⟩ := h.ex
  have hread : Readable (front ++ [last]) c.counter := by
    rw [h0]
    refine ⟨?_, fun _ _ => Or.inr rfl, fun _ => rfl⟩
    intro x hx
    rcases List.mem_append.1 hx with hx | hx
    · have := h2 x hx; omega
    · simp at hx; subst hx; omega
  obtain ⟨outs, c', body', f1, f2, f3, f4, ⟨n, f5⟩, f6, f7, f8⟩ := reads_spec e last.size rooms c (front ++ [last]) D h1 hread (by rw [h0, List.drop_zero]; exact h5) hr
  have hn : n ≤ front.length := by
    rcases Nat.lt_or_ge front.length n with hlt | hge
    · exfalso
      have : body' = [] := by rw [f5]; apply List.drop_eq_nil_of_le; simp; omega
      rw [this] at f4
      have := congrArg List.length f4
      simp [recorded] at this
      omega
    · exact hge
  have hb : body' = front.drop n ++ [last] := by rw [f5, List.drop_append_of_le_length hn]
  have hrec : recorded body' = D.drop (4096 * n) := by rw [f5, recorded_drop n front [last] h2 hn, h5]
  have hlenD : 4096 * n ≤ D.length := by
    have hsz := recorded_length (front ++ [last]) (fun x hx => by have := hread.size x hx; omega)
    rw [h5] at hsz
    rw [hsz]
    have : ∀ l : List Chunk, (∀ x ∈ l, x.size = 4096) → (l.map Chunk.size).sum = 4096 * l.length := by
      intro l
      induction l with
      | nil => intro _; rfl
      | cons y l ih => intro hl; have h1 := ih fun z hz => hl z (by simp [hz]); have h2 := hl y (by simp); simp only [List.map_cons, List.sum_cons, List.length_cons]; omega
    have := this front fun x hx => (h2 x hx).1
    simp only [List.map_append, List.sum_append]; omega
  have hcount : rooms.sum = 4096 * n + c'.counter ∧ c'.counter < 4096 := by
    have hl := congrArg List.length f4
    rw [hrec] at hl
    simp only [List.length_drop] at hl
    have hc : c'.counter < 4096 := by
      cases hb' : body' with
      | nil => rw [hb'] at hb; simp at hb
      | cons x xs =>
        have h1 := f3.counter x (by rw [hb']; rfl)
        have h2 := f3.size x (by rw [hb']; simp)
        omega
    omega
  have hdiv : rooms.sum / 4096 = n := by omega
  have hclose : c'.close = .ok (body', last.size) := by
    unfold CurlObj.close
    rw [f2]
    dsimp only [emptySent]
    rw [hb, List.getLast?_concat]
    dsimp only
    rw [if_neg (by simp only [chunkCapacity]; omega), List.dropLast_concat]
  have hsum : (body'.map Chunk.size).sum = D.length - 4096 * n := by
    rw [← recorded_length body' (fun x hx => by have := f3.size x hx; omega), hrec, List.length_drop]
  have hpos : D.length - 4096 * n > 0 := by omega
  refine ⟨outs, c', { c' with post := .sent body' last.size c'.enc, counter := 0, told := some (some (D.length - 4096 * n), if c'.requestHeaders = [] then (c'.told.elim [] Prod.snd) else c'.requestHeaders) },
    f1, f6, ?_, ?_, rfl, ?_⟩
  · unfold CurlObj.prepare
    rw [hclose]
    simp only [Res.ok_bind, Res.pure_eq, hsum, if_pos hpos]
  · exact ⟨front.drop n, last, c'.enc, by dsimp only; rw [hb], fun x hx => h2 x (List.mem_of_mem_drop hx), h3, h4, by rw [← hb, hrec, hdiv, Nat.mul_comm]⟩
  · dsimp only [Option.map]; rw [hdiv, Nat.mul_comm n]

theorem attempts_offers (as : List (List Nat)) : ∀ (c c0 : CurlObj) (D : Bytes), c0.prepare = .ok c → Offers c D → c.counter = 0 → c.told.map Prod.fst = some (some D.length) →
    (∀ rooms ∈ as, ∀ r ∈ rooms, r < 2 ^ 32) → LeftOver D.length (as.map List.sum) →
    ∃ c1 c2, attempts c0 as = .ok c1 ∧ c1.prepare = .ok c2 ∧ Offers c2 (offered D (as.map List.sum)) ∧ c2.counter = 0 ∧
      c2.told.map Prod.fst = some (some (offered D (as.map List.sum)).length) := by
  induction as with
  | nil => intro c c0 D h1 h2 h3 h4 _ _; exact ⟨c0, c, rfl, h1, h2, h3, h4⟩
  | cons rooms as ih =>
    intro c c0 D h1 h2 h3 h4 h5 h6
    simp only [List.map_cons, LeftOver] at h6
    obtain ⟨outs, c', c'', e1, _, e2, e3, e4, e5⟩ := offers_again h2 h3 rooms (h5 rooms (by simp)) h6.1
    obtain ⟨c1, c2, g1, g2⟩ := ih c'' c' _ e2 e3 e4 (by rw [e5, List.length_drop]) (fun r hr => h5 r (by simp [hr])) (by rw [List.length_drop]; exact h6.2)
    refine ⟨c1, c2, ?_, g2⟩
    simp only [attempts, h1, Res.ok_bind, e1, g1]

/-- What is posted when a request is queued again (any number of times) after attempts that did not get to the end of the data. -/
theorem C143_exact (c : CurlObj) (e : Enc) (fuel : Nat) (ops : List KOp) (h : Written c e fuel ops) (hne : kexpected e [] ops ≠ [])
    (as : List (List Nat)) (ha : ∀ rooms ∈ as, ∀ r ∈ rooms, r < 2 ^ 32) (hl : LeftOver (kexpected e [] ops).length (as.map List.sum))
    (rooms : List Nat) (hr : ∀ r ∈ rooms, r < 2 ^ 32) :
    ∃ c1 c2 outs c3, attempts c as = .ok c1 ∧ c1.prepare = .ok c2 ∧ c2.told.map Prod.fst = some (some (offered (kexpected e [] ops) (as.map List.sum)).length) ∧
      c2.reads rooms = .ok (outs, c3) ∧ outs.flatten = (offered (kexpected e [] ops) (as.map List.sum)).take rooms.sum := by
  obtain ⟨k, h1, h2⟩ := h
  have hk := C16_run fuel ops [] { freshChunks with enc := e } k ⟨rfl, by simp [freshChunks], by simp [freshChunks], rfl⟩ h1
  obtain ⟨c', e1, e2, e3, e4⟩ := offers_written hk c h2 hne
  obtain ⟨c1, c2, g1, g2, g3, g4, g5⟩ := attempts_offers as c' c _ e1 e2 e3 e4 ha hl
  obtain ⟨front, last, en, i1, i2, i3, i4, i5⟩ := g3.ex
  have hread : Readable (front ++ [last]) c2.counter := by
    rw [g4]
    refine ⟨?_, fun _ _ => Or.inr rfl, fun _ => rfl⟩
    intro x hx
    rcases List.mem_append.1 hx with hx | hx
    · have := i2 x hx; omega
    · simp at hx; subst hx; omega
  obtain ⟨outs, c3, body', f1, f2, f3, f4, f5, f6, f7, f8⟩ := reads_spec en last.size rooms c2 (front ++ [last]) (offered (kexpected e [] ops) (as.map List.sum)) i1 hread (by rw [g4, List.drop_zero]; exact i5) hr
  exact ⟨c1, c2, outs, c3, g1, g2, g5, f1, f6⟩

theorem offered_small (D : Bytes) : ∀ (ns : List Nat), (∀ n ∈ ns, n < 4096 ∧ n < D.length) → offered D ns = D ∧ LeftOver D.length ns := by
  intro ns
  induction ns with
  | nil => intro _; exact ⟨rfl, trivial⟩
  | cons n ns ih =>
    intro h
    have hn := h n (by simp)
    have h0 : n / 4096 * 4096 = 0 := by omega
    simp only [offered, LeftOver, h0, List.drop_zero, Nat.sub_zero]
    have := ih fun m hm => h m (by simp [hm])
    exact ⟨this.1, hn.2, this.2⟩

/-- A request that is queued again, after attempts none of which took all the data, or 4096 bytes of them, posts the same data with the same size. -/
theorem C143_partial (c : CurlObj) (e : Enc) (fuel : Nat) (ops : List KOp) (h : Written c e fuel ops) (hne : kexpected e [] ops ≠ [])
    (as : List (List Nat)) (ha : ∀ rooms ∈ as, rooms.sum < 4096 ∧ rooms.sum < (kexpected e [] ops).length)
    (rooms : List Nat) (hr : ∀ r ∈ rooms, r < 2 ^ 32) :
    ∃ c1 c2 outs c3, attempts c as = .ok c1 ∧ c1.prepare = .ok c2 ∧ c2.told.map Prod.fst = some (some (kexpected e [] ops).length) ∧
      c2.reads rooms = .ok (outs, c3) ∧ outs.flatten = (kexpected e [] ops).take rooms.sum := by
  obtain ⟨o1, o2⟩ := offered_small (kexpected e [] ops) (as.map List.sum) (by
    intro n hn
    obtain ⟨r, hr, rfl⟩ := List.mem_map.1 hn
    exact ha r hr)
  have hmem : ∀ (l : List Nat) (r : Nat), r ∈ l → r ≤ l.sum := by
    intro l
    induction l with
    | nil => intro r h; simp at h
    | cons x l ih =>
      intro r h
      simp only [List.sum_cons]
      rcases List.mem_cons.1 h with rfl | h
      · omega
      · have := ih r h; omega
  have := C143_exact c e fuel ops h hne as (fun rooms hro r hr => by have := hmem rooms r hr; have := (ha rooms hro).1; omega) o2 rooms hr
  rwa [o1] at this

/-- Once 4096 bytes have been taken by an attempt that failed, the next one posts less, silently: the beginning is missing, and the size
announced is that of the rest. -/
theorem C143_violated (c : CurlObj) (e : Enc) (fuel : Nat) (ops : List KOp) (h : Written c e fuel ops) (rooms : List Nat) (hr : ∀ r ∈ rooms, r < 2 ^ 32)
    (h1 : 4096 ≤ rooms.sum) (h2 : rooms.sum < (kexpected e [] ops).length) (more : List Nat) (hm : ∀ r ∈ more, r < 2 ^ 32) :
    ∃ c1 c2 outs c3, attempts c [rooms] = .ok c1 ∧ c1.prepare = .ok c2 ∧ c2.reads more = .ok (outs, c3) ∧
      ∃ n, 4096 ≤ n ∧ c2.told.map Prod.fst = some (some ((kexpected e [] ops).length - n)) ∧ n < (kexpected e [] ops).length ∧
        outs.flatten = ((kexpected e [] ops).drop n).take more.sum := by
  obtain ⟨c1, c2, outs, c3, e1, e2, e3, e4, e5⟩ := C143_exact c e fuel ops h (by intro h0; rw [h0] at h2; simp at h2) [rooms] (by simpa using hr)
    ⟨h2, trivial⟩ more hm
  simp only [List.map_cons, List.map_nil, offered] at e3 e5
  rw [List.length_drop] at e3
  exact ⟨c1, c2, outs, c3, e1, e2, e4, _, by omega, e3, by omega, e5⟩

/-- A POST of 5000 bytes: nothing, or 100 bytes, taken by the first attempts; or 4500. -/
example : ∃ c : CurlObj, Written c .none 5 [.insert (List.replicate 5000 97)] := by
  have h : (match krun 5 { freshChunks with enc := .none } [.insert (List.replicate 5000 97)] with | .ok _ => true | _ => false) = true := by decide +kernel
  cases hk : krun 5 { freshChunks with enc := .none } [.insert (List.replicate 5000 97)] with
  | ok k => exact ⟨{ CurlObj.fresh with post := .writing k }, k, hk, rfl⟩
  | ub _ => rw [hk] at h; cases h
  | stuck => rw [hk] at h; cases h

example : (kexpected .none [] [.insert (List.replicate 5000 97)]).length = 5000 ∧ [].sum < 4096 ∧ [100].sum < 4096 ∧ 4096 ≤ [4000, 500].sum ∧ [4000, 500].sum < 5000 := by
  decide +kernel
end Fcgi.Props
