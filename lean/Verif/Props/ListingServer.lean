import Verif.Spec.ListingServer
import Verif.Props.FileServer

/-! C189: what the file server of `examples/server.rs` does with any bytes whatsoever. -/

namespace HttpIo
open Spec

theorem shortest_iff {n : Nat} {t : Bytes} : Shortest n t ↔ t = showDec n := by
  constructor
  · intro h
    induction h with
    | @digit d h =>
      unfold showDec toRadix
      rw [if_pos (by omega)]
      unfold digitChar
      rw [if_pos h]
    | @more n d ds h0 _ h ih =>
      unfold showDec at ih ⊢
      rw [toRadix, if_neg (by omega), show (n * 10 + d) / (8 + 2) = n by omega, show (n * 10 + d) % (8 + 2) = d by omega, ← ih]
      unfold digitChar
      rw [if_pos h]
  · rintro rfl
    induction n using Nat.strongRecOn with
    | ind n ih =>
      unfold showDec
      rw [toRadix]
      by_cases h : n < 8 + 2
      · rw [if_pos h, digitChar, if_pos (by omega)]; exact .digit (by omega)
      · rw [if_neg h, digitChar, if_pos (by omega)]
        have := Shortest.more (n := n / 10) (d := n % 10) (by omega) (ih (n / 10) (by omega)) (by omega)
        rwa [Nat.div_add_mod'] at this

theorem page_flatten {fs : Fs} {p names : List Bytes} {items : Bytes} (h : Page fs p names items) :
    (names.map (listItem fs p)).flatten = items := by
  induction h with
  | nil => rfl
  | @shown n i items names h1 h2 _ ih =>
    rw [List.map_cons, List.flatten_cons, ih]
    congr 1
    unfold listItem
    rw [if_pos ((validUtf8_iff _).2 h1)]
    cases h2 with
    | dir h => rw [if_pos h, itemText_eq]
    | file h => rw [if_neg (by rw [h]; simp), itemText_eq, List.append_nil]
    | link h => rw [if_neg (by rw [h]; simp), itemText_eq, List.append_nil]
  | @passed n items names h1 _ ih =>
    rw [List.map_cons, List.flatten_cons, ih]
    unfold listItem
    rw [if_neg (by rw [validUtf8_iff]; exact h1)]; rfl

theorem page_total {fs : Fs} {p names : List Bytes} (h : ∀ n ∈ names, fs (p ++ [n]) ≠ none) : ∃ items, Page fs p names items := by
  induction names with
  | nil => exact ⟨_, .nil⟩
  | cons n names ih =>
    obtain ⟨items, hi⟩ := ih fun m hm => h m (by simp [hm])
    by_cases ht : IsText n
    · have hn := h n (by simp)
      rcases hx : fs (p ++ [n]) with _ | x
      · exact absurd hx hn
      · cases x with
        | dir => exact ⟨_, .shown ht (.dir hx) hi⟩
        | file content => exact ⟨_, .shown ht (.file hx) hi⟩
        | link text => exact ⟨_, .shown ht (.link hx) hi⟩
    · exact ⟨_, .passed ht hi⟩

section
variable [CaseMap] {c : Cfg} {σ : Type} [LawfulReader σ] [ZeroReader σ] [LawfulWriter σ]

theorem listingHandler_like (readDir : Fs → List Bytes → List Bytes) (root : Bytes) (errText : Err → Bytes) :
    FilesLike (listingHandler c σ readDir root errText) root errText where
  put := rfl
  into _ _ := rfl
  other m h1 h2 := by cases m <;> first | rfl | exact absurd rfl h1 | exact absurd rfl h2
  get target fs e ho := by
    show ListingHandler.get c readDir root target fs = _
    unfold ListingHandler.get ListingHandler.getAmid Fs.metadata
    unfold Fs.openFile at ho
    dsimp only
    rcases hr : fs.resolve (joinPath root (trimSlashes target)) with e' | p <;> rw [hr] at ho <;> dsimp only at ho ⊢
    · rw [Except.error.inj ho]
    · rcases hp : fs p with _ | _ | _ | _ <;> rw [hp] at ho <;> simp at ho <;> subst ho <;> rfl
  release _ _ := rfl
  reads := listingHandler_onlyReads readDir root errText

omit [CaseMap] [LawfulReader σ] [ZeroReader σ] [LawfulWriter σ] in
theorem way_leads {fs : Fs} {R p : List Bytes} {target : Bytes} (h : Way fs R target (.ok p)) :
    ∃ cs, (0 : UInt8) ∉ target ∧ TargetText target cs ∧ Leads fs R cs p := by
  cases h with
  | there h0 ht hl => exact ⟨_, h0, ht, hl⟩

/-- Whatever the bytes are, the server does exactly what the rules say. -/
theorem C189_answer {P : σ → Prop} (hra : ReadsApart σ) (hrel : Reliable c P) (hkept : ∀ s n, P s → P (read s n).2)
    {fs : Fs} {root : Bytes} {R : List Bytes} (hR : RootAt fs root R) (errText : Err → Bytes)
    (readDir : Fs → List Bytes → List Bytes) (s : σ) (hs : P s)
    {stop : Option Err} (hf : Final c stop) (hlr : stop ≠ some .lengthRequired) (input : Bytes)
    (ht : trace s = input.map .byte ++ endEvents stop) {res : Res Unit} {out : Bytes} {fs' : Fs}
    (h : ListingAnswers c errText readDir fs R stop input res out fs') :
    ∃ d, (listingHandler c σ readDir root errText).serveOne errText (.ok s) fs = (res, some d, fs') ∧ sent d = sent s ++ out := by
  cases h with
  | @file target hist rest p content length hq hw hp hl =>
    obtain ⟨r, s1, f1, f2, f3, _, _⟩ := requests_read hf hq s ht
    obtain ⟨cs, h0, htt, hle⟩ := way_leads hw
    rw [shortest_iff] at hl
    subst hl
    have hres := way_resolve hR hw
    let a : ServerResponse c Wire :=
      HttpResponse.addHeader (HttpResponse.new c .OK (.B ⟨[.data content]⟩)) b!"Content-Length" (showDec content.length)
    have hget : ListingHandler.get c readDir root target fs = (.ok a, fs) := by
      unfold ListingHandler.get ListingHandler.getAmid Fs.metadata Fs.openFile
      dsimp only
      rw [hres]
      dsimp only
      rw [hp]
    have he : a.headers.entries = [(utf8 "content-length", showDec content.length)] := by
      show [(CaseMap.lower b!"Content-Length", showDec content.length)] = _
      rw [lower_const b!"Content-Length", show utf8 "content-length" = b!"content-length" by decide +kernel]
      rfl
    have hb : trace a.body = content.map .byte := by
      show trace (BufReader.new c (StreamEither.B (Wire.mk [.data content]) : Boxed Wire)) = _
      rw [BufReader.trace_new]
      show List.flatMap WireEv.events [.data content] = _
      simp [WireEv.events]
    have hg := getGives_of (listingHandler c σ readDir root errText) errText fs target a (fun _ => rfl) (.inl hget) rfl content hb
    rw [he] at hg
    obtain ⟨d, g1, g2⟩ := C81_sent hra hrel hkept readDir root errText fs target _ content hg s hs r s1 f1 f2 f3
    exact ⟨d, g1, by rw [g2, List.append_assoc]⟩
  | @directory target hist rest p items hq hw hp hl =>
    obtain ⟨r, s1, f1, f2, f3, _, _⟩ := requests_read hf hq s ht
    have hres := way_resolve hR hw
    have hget : ListingHandler.get c readDir root target fs =
        (.ok (HttpResponse.new c .OK (.A (Cursor.new (pageText target items)))), fs) := by
      unfold ListingHandler.get ListingHandler.getAmid Fs.metadata
      dsimp only
      rw [hres]
      dsimp only
      rw [hp, page_flatten hl, pageText_eq]
    have hg := getGives_of (listingHandler c σ readDir root errText) errText fs target _ (fun _ => rfl) (.inl hget) rfl _
      (cursor_trace _ _)
    obtain ⟨d, g1, g2⟩ := C81_sent hra hrel hkept readDir root errText fs target _ _ hg s hs r s1 f1 f2 f3
    refine ⟨d, g1, ?_⟩
    rw [g2, List.append_assoc]; rfl
  | other hno h =>
    rcases answer_common hra hrel hkept hR errText (listingHandler_like readDir root errText) s hs hf hlr input ht h with
      h | ⟨target, hist, rest, p, hq, hw, _, ⟨content, hp, _⟩ | ⟨hp, _⟩⟩
    · exact h
    · rw [hno _ _ _ _ hq hw] at hp; simp at hp
    · rw [hno _ _ _ _ hq hw] at hp; simp at hp

omit [LawfulReader σ] [ZeroReader σ] [LawfulWriter σ] in
/-- The rules say something of all bytes. -/
theorem C189_total {fs : Fs} {R : List Bytes} (htree : Tree fs) (hR : fs R = some .dir) (errText : Err → Bytes)
    (readDir : Fs → List Bytes → List Bytes) (hls : ∀ p, ∀ n ∈ readDir fs p, fs (p ++ [n]) ≠ none) (stop : Option Err) (input : Bytes) :
    ∃ res out fs', ListingAnswers c errText readDir fs R stop input res out fs' := by
  by_cases hg : ∀ target hist rest p, Requests c stop input .Get target hist rest → Way fs R target (.ok p) → fs p = none
  · obtain ⟨res, out, fs', h⟩ := C186_total (c := c) htree hR errText stop input
    exact ⟨res, out, fs', .other hg h⟩
  · simp only [Classical.not_forall] at hg
    obtain ⟨target, hist, rest, p, hq, hw, hp⟩ := hg
    rcases hx : fs p with _ | x
    · exact absurd hx hp
    · cases x with
      | dir =>
        obtain ⟨items, hi⟩ := page_total (hls p)
        exact ⟨_, _, _, .directory hq hw hx hi⟩
      | file content => exact ⟨_, _, _, .file hq hw hx (shortest_iff.2 rfl)⟩
      | link text => exact absurd hx (way_noLink htree hR hw text)

omit [LawfulReader σ] [ZeroReader σ] [LawfulWriter σ] in
/-- There is one answer to the same bytes, and the same files afterwards. -/
theorem C189_unique {fs : Fs} {root : Bytes} {R : List Bytes} (hR : RootAt fs root R) {errText : Err → Bytes}
    {readDir : Fs → List Bytes → List Bytes} {stop : Option Err} (hf : Final c stop) (hlr : stop ≠ some .lengthRequired) {input : Bytes}
    {res res' : Res Unit} {out out' : Bytes} {fs' fs'' : Fs} (h : ListingAnswers c errText readDir fs R stop input res out fs')
    (h' : ListingAnswers c errText readDir fs R stop input res' out' fs'') : res = res' ∧ out = out' ∧ fs' = fs'' := by
  have key := fun {res out fs'} (h : ListingAnswers c errText readDir fs R stop input res out fs') =>
    C189_answer duplex_readsApart (duplex_reliable (σ := Sink) (sink_reliable c)) (fun _ _ h => h) hR errText readDir
      (stoppedConn input stop) (by simp [stoppedConn]) hf hlr input (stoppedConn_trace input stop) h
  obtain ⟨d, h1, h2⟩ := key h
  obtain ⟨d', h3, h4⟩ := key h'
  rw [h1] at h3
  simp only [Prod.mk.injEq, Option.some.injEq] at h3
  obtain ⟨g1, g2, g3⟩ := h3
  subst g2
  rw [h2] at h4
  exact ⟨g1, List.append_cancel_left h4, g3⟩

omit [LawfulReader σ] [ZeroReader σ] [LawfulWriter σ] in
theorem listing_keep {fs fs' : Fs} {root : Bytes} {R : List Bytes} (hR : RootAt fs root R) (htree : Tree fs) {errText : Err → Bytes}
    {readDir : Fs → List Bytes → List Bytes} {stop : Option Err} {input : Bytes} {res : Res Unit} {out : Bytes}
    (h : ListingAnswers c errText readDir fs R stop input res out fs') : RootAt fs' root R ∧ Tree fs' := by
  cases h with
  | file => exact ⟨hR, htree⟩
  | directory => exact ⟨hR, htree⟩
  | other _ h => exact answers_keep hR htree h

/-- The server's whole life: whatever bytes the connections bring before they end or fail, one after the other, the results, what is
sent on each, and the files at the end are as the rules say. -/
theorem C189_forever {P : σ → Prop} (hra : ReadsApart σ) (hrel : Reliable c P) (hkept : ∀ s n, P s → P (read s n).2)
    {root : Bytes} {R : List Bytes} (errText : Err → Bytes) (readDir : Fs → List Bytes → List Bytes)
    (hls : ∀ fs p, ∀ n ∈ readDir fs p, fs (p ++ [n]) ≠ none) (conns : List (σ × Bytes × Option Err))
    (hconn : ∀ x ∈ conns, P x.1 ∧ sent x.1 = [] ∧ Final c x.2.2 ∧ x.2.2 ≠ some .lengthRequired ∧
      trace x.1 = x.2.1.map .byte ++ endEvents x.2.2) (fs : Fs) (hR : RootAt fs root R) (htree : Tree fs) :
    ∃ outs, ListingHistory c errText readDir R fs (conns.map (·.2)) outs
        ((listingHandler c σ readDir root errText).serveForever errText (conns.map fun x => .ok x.1) fs).2 ∧
      ((listingHandler c σ readDir root errText).serveForever errText (conns.map fun x => .ok x.1) fs).1.map
        (fun x => (x.1, x.2.map sent)) = outs.map fun x => (x.1, some x.2) := by
  induction conns generalizing fs with
  | nil => exact ⟨[], .nil, rfl⟩
  | cons x conns ih =>
    obtain ⟨s, input, stop⟩ := x
    obtain ⟨hP, h0, hf, hlr, ht⟩ := hconn (s, input, stop) (by simp)
    have ih := ih fun y hy => hconn y (by simp [hy])
    dsimp only at hP h0 hf hlr ht
    obtain ⟨res, out, fs', h3⟩ := C189_total (c := c) htree hR.2.2.1 errText readDir (hls fs) stop input
    obtain ⟨d, h1, h2⟩ := C189_answer hra hrel hkept hR errText readDir s hP hf hlr input ht h3
    obtain ⟨h4, h5⟩ := listing_keep hR htree h3
    rw [h0, List.nil_append] at h2
    obtain ⟨outs, h6, h7⟩ := ih fs' h4 h5
    rw [List.map_cons, List.map_cons]
    unfold Handler.serveForever
    rw [h1]
    cases res with
    | panic => exact ⟨[(.panic, out)], .panic h3, by simp [h2]⟩
    | ok u => exact ⟨(.ok (), out) :: outs, .next h3 (by simp) h6, by dsimp only; rw [List.map_cons, h7]; simp [h2]⟩
    | err e => exact ⟨(.err e, out) :: outs, .next h3 (by simp) h6, by dsimp only; rw [List.map_cons, h7]; simp [h2]⟩

omit [LawfulReader σ] [ZeroReader σ] [LawfulWriter σ] in
/-- The bytes settle it: no two histories. -/
theorem C189_history_unique {root : Bytes} {R : List Bytes} {errText : Err → Bytes} {readDir : Fs → List Bytes → List Bytes}
    {fs fs' fs'' : Fs} (hR : RootAt fs root R) (htree : Tree fs) {inputs : List (Bytes × Option Err)}
    (hin : ∀ x ∈ inputs, Final c x.2 ∧ x.2 ≠ some .lengthRequired) {outs outs' : List (Res Unit × Bytes)}
    (h : ListingHistory c errText readDir R fs inputs outs fs') (h' : ListingHistory c errText readDir R fs inputs outs' fs'') :
    outs = outs' ∧ fs' = fs'' := by
  induction h generalizing outs' fs'' with
  | nil => cases h'; exact ⟨rfl, rfl⟩
  | panic h1 =>
    cases h' with
    | panic k1 =>
      obtain ⟨_, rfl, rfl⟩ := C189_unique hR (hin _ List.mem_cons_self).1 (hin _ List.mem_cons_self).2 h1 k1
      exact ⟨rfl, rfl⟩
    | next k1 k2 _ => exact absurd (C189_unique hR (hin _ List.mem_cons_self).1 (hin _ List.mem_cons_self).2 h1 k1).1.symm k2
  | next h1 h2 _ ih =>
    cases h' with
    | panic k1 => exact absurd (C189_unique hR (hin _ List.mem_cons_self).1 (hin _ List.mem_cons_self).2 h1 k1).1 h2
    | next k1 k2 k3 =>
      obtain ⟨rfl, rfl, rfl⟩ := C189_unique hR (hin _ List.mem_cons_self).1 (hin _ List.mem_cons_self).2 h1 k1
      obtain ⟨h3, h4⟩ := listing_keep hR htree h1
      obtain ⟨rfl, rfl⟩ := ih h3 h4 (fun x hx => hin x (by simp [hx])) k3
      exact ⟨rfl, rfl⟩

end

/-- The entries of the sample directories. -/
def sampleDir (fs : Fs) (p : List Bytes) : List Bytes := [b!"srv", b!"a", b!"b", b!"secret"].filter fun n => (fs (p ++ [n])).isSome

theorem sampleDir_lists (fs : Fs) (p : List Bytes) : ∀ n ∈ sampleDir fs p, fs (p ++ [n]) ≠ none := by
  intro n h h'
  have := (List.mem_filter.1 h).2
  rw [h'] at this; simp at this

/-- Witness for `C189_answer`, `C189_total`, `C189_unique`, `C189_forever` and `C189_history_unique`: a file is fetched; an upload is cut
off by a failure, and is answered with 500; the directory is listed, and has what has come of the upload; another method is refused;
the parser panics. -/
example (c : Cfg) : let _ := asciiCase
    let inputs := [(b!"GET /a HTTP/1.1\r\n\r\n", none), (b!"PUT /b HTTP/1.1\r\ncontent-length: 3\r\n\r\nho", some (.io (.other 104))),
      (b!"GET / HTTP/1.1\r\n\r\n", none), (b!"DELETE /a HTTP/1.1\r\n\r\n", none), (b!"GET / HTTP/é\r\n\r\n", none)]
    RootAt sampleFs b!"/srv" [b!"srv"] ∧ Tree sampleFs ∧
    (∀ fs p, ∀ n ∈ sampleDir fs p, fs (p ++ [n]) ≠ none) ∧
    (∀ x ∈ inputs.map fun i => (stoppedConn i.1 i.2, i), sent x.1 = [] ∧ trace x.1 = x.2.1.map .byte ++ endEvents x.2.2) ∧
    (∀ x ∈ inputs, Final c x.2 ∧ x.2 ≠ some .lengthRequired) ∧
    ((listingHandler c (Duplex Wire Sink) sampleDir b!"/srv" fun _ => b!"?").serveForever (fun _ => b!"?")
      (inputs.map fun i => .ok (stoppedConn i.1 i.2)) sampleFs).1.map (fun x => (x.1, x.2.map sent)) =
      [(.ok (), some b!"HTTP/1.1 200 OK\r\ncontent-length: 3\r\n\r\nold"),
        (.ok (), some b!"HTTP/1.1 500 Internal Server Error\r\n\r\n?"),
        (.ok (), some (b!"HTTP/1.1 200 OK\r\n\r\n" ++
          listPage b!"/" b!"<li><a href=\"a\">a</a></br><li><a href=\"b\">b</a></br>")),
        (.ok (), some b!"HTTP/1.1 405 Method Not Allowed\r\n\r\nDELETE not allowed"), (.panic, some [])] := by
  intro _ inputs
  refine ⟨sampleFs_root, sampleFs_tree, sampleDir_lists, fun x hx => ?_, fun x hx => ?_, ?_⟩
  · obtain ⟨i, _, rfl⟩ := List.mem_map.1 hx
    exact ⟨rfl, stoppedConn_trace i.1 i.2⟩
  · simp only [inputs, List.mem_cons, List.not_mem_nil, or_false] at hx
    rcases hx with rfl | rfl | rfl | rfl | rfl <;> refine ⟨fun e he => ?_, by simp⟩ <;> simp at he
    all_goals subst he; simp [Retried]
  · rcases c with ⟨_ | _⟩ <;> decide +kernel

end HttpIo
