import Verif.Spec.Listing
import Verif.Props.Files

/-! C81-C84: the file server of `examples/server.rs`. -/

namespace HttpIo
open Spec

section
variable [CaseMap] {c : Cfg} {σ : Type} [LawfulReader σ] [ZeroReader σ] [LawfulWriter σ]

/-- What a GET gives, from what the handler's `get` returns. -/
theorem getGives_of {η ρ ε : Type} [LawfulReader ρ] [ZeroReader ρ] (h : Handler c η σ ρ ε) (errText : Err → Bytes) (st : η)
    (target : Bytes) (a : ServerResponse c ρ) (hrel : ∀ b, h.release b st = st)
    (hg : h.get target st = (.ok a, st) ∨ ∃ e, h.get target st = (.err e, st) ∧ h.into e = a) (hv : a.version = ⟨1, 1⟩)
    (bs : Bytes) (hb : trace a.body = bs.map .byte) :
    GetGives h errText st target a.status a.headers.entries bs := by
  intro s r s1 hd hm hu
  have hi := serveOneInner_handled h errText st hd (by intro hx; rw [hm] at hx; simp at hx)
  rw [hm, hu] at hi
  have hh : handled h .Get target r.body st = ((h.get target st).1, r.body, (h.get target st).2) := rfl
  rw [hh] at hi
  rcases hg with hg | ⟨e, hg, he⟩
  · rw [hg] at hi
    dsimp only [Reply.mapErr] at hi
    refine ⟨⟨a, .inl (by rw [hi]), hv, rfl, rfl, yields_of_trace hb⟩, ?_⟩
    unfold Handler.serveOne
    dsimp only
    rw [hi]
    dsimp only
    rcases respond c a (r.body.released s1) with ⟨_ | _, _, _⟩ <;> exact hrel _
  · rw [hg] at hi
    dsimp only [Reply.mapErr] at hi
    rw [he] at hi
    refine ⟨⟨a, .inr (by rw [hi]), hv, rfl, rfl, yields_of_trace hb⟩, ?_⟩
    unfold Handler.serveOne
    dsimp only
    rw [hi]
    dsimp only
    rcases respond c a (r.body.released s1) with ⟨_ | _, _, _⟩ <;> rfl

theorem cursor_trace {ρ : Type} [LawfulReader ρ] [ZeroReader ρ] (status : HttpStatus) (text : Bytes) :
    trace (HttpResponse.new c status (StreamEither.A (Cursor.new text) : Boxed ρ)).body = text.map .byte := by
  show trace (BufReader.new c (StreamEither.A (Cursor.new text) : Boxed ρ)) = _
  rw [BufReader.trace_new]
  show (text.drop 0).map Ev.byte = _
  rw [List.drop_zero]

omit [CaseMap] in
theorem pageText_eq (uri items : Bytes) : listPage uri items = pageText uri items := by
  unfold listPage pageText
  rw [show utf8 "\n                <html>\n                <title>Directory listing for " =
      b!"\n                <html>\n                <title>Directory listing for " by decide +kernel,
    show utf8 "</title>\n                <h2>Directory listing for " =
      b!"</title>\n                <h2>Directory listing for " by decide +kernel,
    show utf8 "</h2>\n                <body>\n                <hr>\n                <ul>\n                " =
      b!"</h2>\n                <body>\n                <hr>\n                <ul>\n                " by decide +kernel,
    show utf8 "\n                </ul>\n                <hr>\n                </body>\n                </html>\n            " =
      b!"\n                </ul>\n                <hr>\n                </body>\n                </html>\n            " by
      decide +kernel]

omit [CaseMap] in
theorem itemText_eq (href name : Bytes) :
    itemText href name = b!"<li><a href=\"" ++ href ++ b!"\">" ++ name ++ b!"</a></br>" := by
  unfold itemText
  rw [show utf8 "<li><a href=\"" = b!"<li><a href=\"" by decide +kernel, show utf8 "\">" = b!"\">" by decide +kernel,
    show utf8 "</a></br>" = b!"</a></br>" by decide +kernel]

/-- The items the handler writes, with their names. -/
def itemsOf (fs : Fs) (p : List Bytes) (names : List Bytes) : List (Bytes × Bytes) :=
  (names.filter validUtf8).map fun n => (n, listItem fs p n)

theorem itemsOf_flatten (fs : Fs) (p names : List Bytes) :
    (names.map (listItem fs p)).flatten = ((itemsOf fs p names).map (·.2)).flatten := by
  unfold itemsOf
  induction names with
  | nil => rfl
  | cons n ns ih =>
    rw [List.map_cons, List.flatten_cons, ih, List.filter_cons]
    by_cases h : validUtf8 n = true
    · rw [if_pos h]; simp
    · rw [if_neg h]
      unfold listItem
      rw [if_neg h]
      simp

theorem itemsOf_items {fs : Fs} {p names : List Bytes} (h : Lists names fs p) : Items fs p (itemsOf fs p names) := by
  obtain ⟨h1, h2⟩ := h
  refine ⟨?_, fun n => ?_, fun x hx => ?_⟩
  · unfold itemsOf
    rw [List.map_map]
    show ((names.filter validUtf8).map fun n => n).Nodup
    rw [List.map_id']
    exact h1.filter _
  · unfold itemsOf
    simp only [List.mem_map, List.mem_filter, Prod.mk.injEq]
    constructor
    · rintro ⟨i, m, ⟨h3, h4⟩, rfl, _⟩
      obtain ⟨k1, k2, k3, k4⟩ := (h2 m).1 h3
      exact ⟨k1, k2, k3, k4, (validUtf8_iff m).1 h4⟩
    · rintro ⟨k1, k2, k3, k4, k5⟩
      exact ⟨_, n, ⟨(h2 n).2 ⟨k1, k2, k3, k4⟩, (validUtf8_iff n).2 k5⟩, rfl, rfl⟩
  · unfold itemsOf at hx
    simp only [List.mem_map, List.mem_filter] at hx
    obtain ⟨n, ⟨h3, h4⟩, rfl⟩ := hx
    obtain ⟨k1, _⟩ := (h2 n).1 h3
    dsimp only
    unfold listItem
    rw [if_pos h4]
    dsimp only
    cases hn : fs (p ++ [n]) with
    | none => exact absurd hn k1
    | some node =>
      cases node with
      | dir => rw [if_pos rfl, ← itemText_eq]; exact .dir hn
      | file content => rw [if_neg (by simp), List.append_nil, ← itemText_eq]; exact .file hn
      | link text => rw [if_neg (by simp), List.append_nil, ← itemText_eq]; exact .link hn

/-! ### C81 -/

/-- A GET of a file is answered with 200, its length and its content. -/
theorem C81_file {fs : Fs} {root target : Bytes} {R cs p : List Bytes} (hR : RootAt fs root R) (ht : TargetText target cs)
    (h0 : (0 : UInt8) ∉ target) (hl : Leads fs R cs p) (content : Bytes) (hp : fs p = some (.file content))
    (readDir : Fs → List Bytes → List Bytes) (errText : Err → Bytes) :
    ∃ length, Numeral 10 length content.length ∧
      GetGives (listingHandler c σ readDir root errText) errText fs target .OK [(utf8 "content-length", length)] content := by
  have hres := resolve_join hR ht
  rw [if_neg h0, walk_iff.2 hl] at hres
  refine ⟨showDec content.length, numeral_showDec _, ?_⟩
  let a : ServerResponse c Wire :=
    HttpResponse.addHeader (HttpResponse.new c .OK (.B ⟨[.data content]⟩)) b!"Content-Length" (showDec content.length)
  have hget : ListingHandler.get c readDir root target fs = (.ok a, fs) := by
    unfold ListingHandler.get ListingHandler.getAmid Fs.metadata Fs.openFile
    dsimp only
    rw [hres]
    dsimp only
    rw [hp]
  have he : a.headers.entries = [(utf8 "content-length", showDec content.length)] := by
    show [(CaseMap.lower b!"Content-Length", showDec content.length)] = _
    rw [lower_const b!"Content-Length", show utf8 "content-length" = b!"content-length" by decide +kernel]
    rfl
  have := getGives_of (listingHandler c σ readDir root errText) errText fs target a (fun _ => rfl) (.inl hget) rfl content ?_
  · rw [he] at this
    exact this
  · show trace (BufReader.new c (StreamEither.B (Wire.mk [.data content]) : Boxed Wire)) = _
    rw [BufReader.trace_new]
    show List.flatMap WireEv.events [.data content] = _
    simp [WireEv.events]

/-- A GET of a directory is answered with 200 and a page that has an item for every entry with a name that is text. -/
theorem C81_directory {fs : Fs} {root target : Bytes} {R cs p : List Bytes} (hR : RootAt fs root R) (ht : TargetText target cs)
    (h0 : (0 : UInt8) ∉ target) (hl : Leads fs R cs p) (hp : fs p = some .dir)
    (readDir : Fs → List Bytes → List Bytes) (hls : Lists (readDir fs p) fs p) (errText : Err → Bytes) :
    ∃ items, Items fs p items ∧
      GetGives (listingHandler c σ readDir root errText) errText fs target .OK [] (pageText target (items.map (·.2)).flatten) := by
  have hres := resolve_join hR ht
  rw [if_neg h0, walk_iff.2 hl] at hres
  refine ⟨itemsOf fs p (readDir fs p), itemsOf_items hls, ?_⟩
  rw [← itemsOf_flatten, ← pageText_eq]
  have hget : ListingHandler.get c readDir root target fs =
      (.ok (HttpResponse.new c .OK (.A (Cursor.new (listPage target ((readDir fs p).map (listItem fs p)).flatten)))), fs) := by
    unfold ListingHandler.get ListingHandler.getAmid Fs.metadata
    dsimp only
    rw [hres]
    dsimp only
    rw [hp]
  exact getGives_of (listingHandler c σ readDir root errText) errText fs target _ (fun _ => rfl) (.inl hget) rfl _ (cursor_trace _ _)

/-- As `C67_inside_partial`, for the server that lists directories: what it answers, listings included, depends only on what is
below the root, and nothing else changes. `read_dir` gives the names in a directory by what is in that directory. -/
theorem C67_listing_partial {root : Bytes} {R : List Bytes} (readDir : Fs → List Bytes → List Bytes)
    (hdir : ∀ fs fs' p, (∀ q, p <+: q → fs q = fs' q) → readDir fs p = readDir fs' p)
    (errText : Err → Bytes) (accepted : List (Res σ)) (fs fs' : Fs)
    (hst : ∀ s, .ok s ∈ accepted →
      ∀ r s1, HttpRequest.deserialize c (BufReader.new c s) = (.ok r, s1) → ∀ cs, TargetText r.uri cs → Confined fs R cs)
    (hR : RootAt fs root R) (hR' : RootAt fs' root R) (hag : ∀ q, R <+: q → fs q = fs' q) :
    ((listingHandler c σ readDir root errText).serveForever errText accepted fs).1 =
      ((listingHandler c σ readDir root errText).serveForever errText accepted fs').1 ∧
    (∀ q, R <+: q → ((listingHandler c σ readDir root errText).serveForever errText accepted fs).2 q =
      ((listingHandler c σ readDir root errText).serveForever errText accepted fs').2 q) ∧
    (∀ q, ¬ R <+: q → ((listingHandler c σ readDir root errText).serveForever errText accepted fs).2 q = fs q) := by
  refine within_forever ?_ (fun _ _ => rfl) errText accepted fs fs' hst hR hR' hag
  intro fs fs' hR hR' hag m uri cs ht hs body
  cases m with
  | Get =>
    show (ListingHandler.get c readDir root uri fs).1 = (ListingHandler.get c readDir root uri fs').1 ∧ body = body ∧
      (((ListingHandler.get c readDir root uri fs).2 = fs ∧ (ListingHandler.get c readDir root uri fs').2 = fs') ∨ _)
    have h1 := resolve_join hR ht
    have h2 := resolve_join hR' ht
    obtain ⟨w1, w2⟩ := walk_confined hag hs
    rw [← w1] at h2
    unfold ListingHandler.get ListingHandler.getAmid Fs.metadata Fs.openFile
    dsimp only
    rw [h1, h2]
    cases hr : (if (0 : UInt8) ∈ uri then .error (.io .invalidInput) else fs.walk R cs : Except Err (List Bytes)) with
    | error e => exact ⟨rfl, rfl, .inl ⟨rfl, rfl⟩⟩
    | ok p =>
      have hp : R <+: p := by
        split at hr
        · simp at hr
        · exact w2 p hr
      dsimp only
      rw [← hag p hp]
      cases hn : fs p with
      | none => exact ⟨rfl, rfl, .inl ⟨rfl, rfl⟩⟩
      | some node =>
        cases node with
        | file content => exact ⟨rfl, rfl, .inl ⟨rfl, rfl⟩⟩
        | link text => exact ⟨rfl, rfl, .inl ⟨rfl, rfl⟩⟩
        | dir =>
          have hd : readDir fs p = readDir fs' p := hdir fs fs' p fun q hq => hag q (hp.trans hq)
          have hl : listItem fs p = listItem fs' p := by
            funext n
            unfold listItem
            rw [hag (p ++ [n]) (hp.trans (List.prefix_append _ _))]
          refine ⟨?_, rfl, .inl ⟨rfl, rfl⟩⟩
          dsimp only
          rw [hd, hl]
  | Put => exact handled_agrees hR hR' hag errText .Put ht hs body
  | _ => exact ⟨rfl, rfl, .inl ⟨rfl, rfl⟩⟩

theorem listingHandler_onlyReads (readDir : Fs → List Bytes → List Bytes) (root : Bytes) (errText : Err → Bytes) :
    OnlyReads (listingHandler c σ readDir root errText) :=
  ⟨(fileHandler_onlyReads root errText).1, fun _ _ _ => ⟨[], rfl⟩⟩

/-- What a GET gives is what is sent, over transports that do not fail. -/
theorem C81_sent {P : σ → Prop} (hra : ReadsApart σ) (hrel : Reliable c P) (hkept : ∀ s n, P s → P (read s n).2)
    (readDir : Fs → List Bytes → List Bytes) (root : Bytes) (errText : Err → Bytes) (fs : Fs) (target : Bytes)
    (entries : List (Bytes × Bytes)) (bs : Bytes)
    (hg : GetGives (listingHandler c σ readDir root errText) errText fs target .OK entries bs)
    (s : σ) (hs : P s) (r : HttpRequest c (BufReader c σ)) (s1 : BufReader c σ)
    (hd : HttpRequest.deserialize c (BufReader.new c s) = (.ok r, s1)) (hm : r.method = .Get) (hu : r.uri = target) :
    ∃ d, (listingHandler c σ readDir root errText).serveOne errText (.ok s) fs = (.ok (), some d, fs) ∧
      sent d = sent s ++ responseHead (utf8 "200 OK") entries ++ bs := by
  obtain ⟨⟨a, a1, a2, a3, a4, a5⟩, hst⟩ := hg s r s1 hd hm hu
  obtain ⟨g1, d, g2, _, g3⟩ := serve_succeeds hra hrel hkept (listingHandler c σ readDir root errText)
    (listingHandler_onlyReads readDir root errText) errText s fs hs a a1 a2 bs []
    (by rw [trace_of_yields a5]; simpa using delivers_map c bs []) (by simp [Ended])
  refine ⟨d, ?_, ?_⟩
  · rcases hx : (listingHandler c σ readDir root errText).serveOne errText (.ok s) fs with ⟨x, y, z⟩
    rw [hx] at g1 g2 hst
    dsimp only at g1 g2 hst
    subst g1 g2 hst
    rfl
  · rw [g3, a4, a3, show HttpStatus.OK.display = utf8 "200 OK" by decide +kernel]

/-! ### C82 -/

omit [CaseMap] [LawfulReader σ] [ZeroReader σ] [LawfulWriter σ] in
theorem leads_append {fs : Fs} {cur a b q : List Bytes} (h : Leads fs cur (a ++ b) q) :
    ∃ p, Leads fs cur a p ∧ Leads fs p b q := by
  obtain ⟨n, hn, h⟩ := h
  obtain ⟨p, n1, n2, e, h1, h2⟩ := comes_split h
  exact ⟨p, ⟨n1, by omega, h1⟩, ⟨n2, by omega, h2⟩⟩

omit [CaseMap] [LawfulReader σ] [ZeroReader σ] [LawfulWriter σ] in
theorem leads_more {fs : Fs} {cur a b p q : List Bytes} (h : Leads fs cur a p) (h' : Comes fs 0 p b q []) :
    Leads fs cur (a ++ b) q := by
  obtain ⟨n, hn, h⟩ := h
  exact ⟨n, hn, comes_trans (comes_append h b) h'⟩

omit [CaseMap] [LawfulReader σ] [ZeroReader σ] [LawfulWriter σ] in
theorem leads_unique {fs : Fs} {cur cs p q : List Bytes} (h : Leads fs cur cs p) (h' : Leads fs cur cs q) : p = q := by
  rw [← walk_iff] at h h'
  rw [h, Except.ok.injEq] at h'
  exact h'

theorem targetText_unique {target : Bytes} {cs cs' : List Bytes} (h : TargetText target cs) (h' : TargetText target cs') :
    cs = cs' := by
  obtain ⟨k, path, rfl, h1, h2⟩ := h
  obtain ⟨k', path', e, h1', h2'⟩ := h'
  have := trimSlashes_eq (k := k) h1
  rw [e, trimSlashes_eq h1'] at this
  subst this
  rw [← splitPath_iff.1 h2, ← splitPath_iff.1 h2']

/-- A target with a slash in it, and what may follow that slash. -/
theorem target_parts (dir : Bytes) :
    ∃ ds, ∀ ref : Bytes, ref.head? ≠ some 47 → TargetText (dir ++ [47] ++ ref) (ds ++ splitPath ref) := by
  obtain ⟨_, k, q, rfl, h1, _⟩ := target_total dir
  cases q with
  | nil =>
    refine ⟨[], fun ref hr => ⟨k + 1, ref, ?_, hr, splitPath_iff.2 rfl⟩⟩
    rw [List.append_nil, List.replicate_succ']
  | cons x q =>
    refine ⟨splitPath (x :: q), fun ref _ => ⟨k, (x :: q) ++ [47] ++ ref, by simp, ?_, splitPath_iff.2 (splitPath_append _ _)⟩⟩
    simpa using h1

theorem head_ne {ref : Bytes} (h : (47 : UInt8) ∉ ref) : ref.head? ≠ some 47 :=
  fun h' => h (List.mem_of_mem_head? (by rw [h']; rfl))

theorem splitPath_dir {n : Bytes} (h : (47 : UInt8) ∉ n) : splitPath (n ++ [47]) = [n, []] := by
  have := splitPath_append n []
  rw [List.append_nil, splitPath_single h] at this
  exact this

theorem unreserved_ne {n : Bytes} (h : Unreserved n) : (47 : UInt8) ∉ n ∧ (0 : UInt8) ∉ n ∧ IsText n := by
  refine ⟨fun hm => ?_, fun hm => ?_, (isText_ascii ((isAscii_iff _).2 fun b hb => ?_))⟩
  · have := h 47 hm; revert this; decide
  · have := h 0 hm; revert this; decide
  · rcases h b hb with h | h | h | h | h | h | h
    · omega
    · omega
    · omega
    · subst h; decide
    · subst h; decide
    · subst h; decide
    · subst h; decide

/-- The item of an entry has the name as its text, and as its link, followed by a slash for a directory. -/
theorem entryItem_href {fs : Fs} {p : List Bytes} {n href : Bytes} (h : EntryItem fs p n (itemText href n)) :
    (fs (p ++ [n]) = some .dir ∧ href = n ++ [47]) ∨
    ((∃ content, fs (p ++ [n]) = some (.file content)) ∨ ∃ text, fs (p ++ [n]) = some (.link text)) ∧ href = n := by
  generalize hi : itemText href n = i at h
  have hcancel : ∀ href', itemText href n = itemText href' n → href = href' := by
    intro href' h
    rw [itemText_eq, itemText_eq] at h
    simpa using h
  cases h with
  | dir h => exact .inl ⟨h, hcancel _ hi⟩
  | file h => exact .inr ⟨.inl ⟨_, h⟩, hcancel _ hi⟩
  | link h => exact .inr ⟨.inr ⟨_, h⟩, hcancel _ hi⟩

theorem beside_parts {dir last ref target : Bytes} (hl : (47 : UInt8) ∉ last) (h : Beside (dir ++ [47] ++ last) ref target) :
    target = dir ++ [47] ++ ref := by
  obtain ⟨dir', last', h1, h2, rfl⟩ := h
  have : dir ++ [47] ++ last = dir' ++ [47] ++ last' := h2
  have hr := congrArg List.reverse this
  simp only [List.reverse_append, List.reverse_cons, List.reverse_nil, List.nil_append, List.append_assoc, List.singleton_append] at hr
  have h47 : ∀ (a b x y : Bytes), (47 : UInt8) ∉ a → (47 : UInt8) ∉ b → a ++ 47 :: x = b ++ 47 :: y → x = y := by
    intro a
    induction a with
    | nil =>
      intro b x y _ hb h
      cases b with
      | nil => simpa using h
      | cons c b => simp only [List.nil_append, List.cons_append, List.cons.injEq] at h; rw [← h.1] at hb; simp at hb
    | cons d a ih =>
      intro b x y ha hb h
      cases b with
      | nil => simp only [List.nil_append, List.cons_append, List.cons.injEq] at h; rw [h.1] at ha; simp at ha
      | cons c b =>
        simp only [List.cons_append, List.cons.injEq] at h
        exact ih b x y (fun hm => ha (List.mem_cons_of_mem _ hm)) (fun hm => hb (List.mem_cons_of_mem _ hm)) h.2
  have hrev : dir.reverse = dir'.reverse := h47 last.reverse last'.reverse _ _ (by simpa using hl) (by simpa using h1) hr
  rw [List.reverse_inj.1 hrev]

/-- Where the link of an entry leads, relative to the directory `q` in which the target is looked up. -/
theorem link_leads {fs : Fs} {R q : List Bytes} {dir : Bytes} {ds : List Bytes} (hq : Leads fs R ds q) (hqd : fs q = some .dir)
    (hds : ∀ ref : Bytes, ref.head? ≠ some 47 → TargetText (dir ++ [47] ++ ref) (ds ++ splitPath ref)) {n : Bytes} (hn : IsName n)
    (hs : (47 : UInt8) ∉ n) :
    ((∀ text, fs (q ++ [n]) ≠ some (.link text)) → ∃ cs, TargetText (dir ++ [47] ++ n) cs ∧ Leads fs R cs (q ++ [n])) ∧
    (fs (q ++ [n]) = some .dir → ∃ cs, TargetText (dir ++ [47] ++ (n ++ [47])) cs ∧ Leads fs R cs (q ++ [n])) ∧
    (fs (q ++ [n]) = none → ∃ cs, TargetText (dir ++ [47] ++ (n ++ [47])) cs ∧ fs.walk R cs = .error notFound) := by
  have hnh : (n ++ [47]).head? ≠ some 47 := by
    cases n with
    | nil => exact absurd rfl hn.1
    | cons x n => simp only [List.mem_cons, not_or] at hs; simpa using fun h => hs.1 h.symm
  refine ⟨fun h => ⟨_, hds n (head_ne hs), leads_more hq ?_⟩, fun h => ⟨_, hds _ hnh, leads_more hq ?_⟩,
    fun h => ⟨_, hds _ hnh, ?_⟩⟩
  · rw [splitPath_single hs]; exact .down hqd hn h .here
  · rw [splitPath_dir hs]; exact .down hqd hn (by simp [h]) (.stay h (.inl rfl) .here)
  · rw [splitPath_dir hs]
    obtain ⟨k, hk, hq⟩ := hq
    have hc : Comes fs 0 q [n, []] (q ++ [n]) [[]] := .down hqd hn (by simp [h]) .here
    rw [comes_le (comes_trans (comes_append hq _) hc) hk, walkBy_cons, h]

/-! ### C84: nothing there -/

omit [CaseMap] [LawfulReader σ] [ZeroReader σ] [LawfulWriter σ] in
theorem walk_notDir {fs : Fs} {cur cs : List Bytes} : fs.walk cur cs = .error notDir ↔ Blocked fs cur cs := by
  constructor
  · intro h
    have := walk_ends fs 40 cur cs
    rw [show fs.walkBy 40 cur cs = .error notDir from h] at this
    generalize hr : Except.error notDir = r at this
    cases this with
    | blocked h1 h2 h3 => exact ⟨_, _, _, _, _, h1, h2, h3⟩
    | _ => simp [notDir, notFound, tooManyLinks] at hr
  · rintro ⟨n, p, d, rest, content, hn, h, hf⟩
    rw [comes_le h hn, walkBy_cons, hf]

omit [CaseMap] [LawfulReader σ] [ZeroReader σ] [LawfulWriter σ] in
theorem walk_tangled {fs : Fs} {cur cs : List Bytes} : fs.walk cur cs = .error tooManyLinks ↔ Tangled fs cur cs := by
  constructor
  · intro h
    have := walk_ends fs 40 cur cs
    rw [show fs.walkBy 40 cur cs = .error tooManyLinks from h] at this
    generalize hr : Except.error tooManyLinks = r at this
    cases this with
    | tangled h1 => exact ⟨_, _, h1⟩
    | _ => simp [notDir, notFound, tooManyLinks] at hr
  · rintro ⟨p, rest, h⟩
    exact comes_over h (by decide)

omit [CaseMap] [LawfulReader σ] [ZeroReader σ] [LawfulWriter σ] in
theorem walk_error {fs : Fs} {cur cs : List Bytes} {e : Err} (h : fs.walk cur cs = .error e) :
    Blocked fs cur cs ∧ e = notDir ∨ Tangled fs cur cs ∧ e = tooManyLinks ∨
      ¬ Blocked fs cur cs ∧ ¬ Tangled fs cur cs ∧ e = notFound := by
  have := walk_ends fs 40 cur cs
  rw [show fs.walkBy 40 cur cs = .error e from h] at this
  generalize hr : Except.error e = r at this
  cases this with
  | found => simp at hr
  | missing =>
    simp only [Except.error.injEq] at hr
    subst hr
    refine .inr (.inr ⟨fun hb => ?_, fun hb => ?_, rfl⟩)
    · rw [walk_notDir.2 hb] at h; simp [notDir, notFound] at h
    · rw [walk_tangled.2 hb] at h; simp [tooManyLinks, notFound] at h
  | blocked h1 h2 h3 => simp only [Except.error.injEq] at hr; exact .inl ⟨⟨_, _, _, _, _, h1, h2, h3⟩, hr⟩
  | tangled h1 => simp only [Except.error.injEq] at hr; exact .inr (.inl ⟨⟨_, _, h1⟩, hr⟩)

omit [CaseMap] [LawfulReader σ] [ZeroReader σ] [LawfulWriter σ] in
theorem absent_error {fs : Fs} {root target : Bytes} {R cs : List Bytes} (hR : RootAt fs root R) (ht : TargetText target cs)
    (h0 : (0 : UInt8) ∉ target) (ha : Absent fs R cs) :
    ∃ e, (Blocked fs R cs ∧ e = notDir ∨ Tangled fs R cs ∧ e = tooManyLinks ∨ ¬ Blocked fs R cs ∧ ¬ Tangled fs R cs ∧ e = notFound) ∧
      fs.metadata (joinPath root (trimSlashes target)) = .error e ∧
      fs.openFile (joinPath root (trimSlashes target)) = .error e := by
  have hres := resolve_join hR ht
  rw [if_neg h0] at hres
  unfold Fs.metadata Fs.openFile
  rw [hres]
  cases hw : fs.walk R cs with
  | error e => exact ⟨e, walk_error hw, rfl, rfl⟩
  | ok p =>
    dsimp only
    rw [ha p (walk_iff.1 hw)]
    exact ⟨notFound, .inr (.inr ⟨fun hb => by rw [walk_notDir.2 hb] at hw; simp at hw,
      fun hb => by rw [walk_tangled.2 hb] at hw; simp at hw, rfl⟩), rfl, rfl⟩

/-- A GET of something that is not there is answered with 500 and the text of the error, by both file servers: ENOTDIR if there
is a file on the way, ELOOP if there are too many symbolic links on it, else ENOENT. -/
theorem C84_absent_partial {fs : Fs} {root target : Bytes} {R cs : List Bytes} (hR : RootAt fs root R) (ht : TargetText target cs)
    (h0 : (0 : UInt8) ∉ target) (ha : Absent fs R cs) (readDir : Fs → List Bytes → List Bytes) (errText : Err → Bytes) :
    ∃ e, (Blocked fs R cs ∧ e = notDir ∨ Tangled fs R cs ∧ e = tooManyLinks ∨ ¬ Blocked fs R cs ∧ ¬ Tangled fs R cs ∧ e = notFound) ∧
      GetGives (listingHandler c σ readDir root errText) errText fs target .InternalServerError [] (errText e) ∧
      GetGives (fileHandler c σ root errText) errText fs target .InternalServerError [] (errText e) := by
  obtain ⟨e, he, h1, h2⟩ := absent_error hR ht h0 ha
  refine ⟨e, he, ?_, ?_⟩
  · exact getGives_of (listingHandler c σ readDir root errText) errText fs target
      (ServerResponse.fromString c .InternalServerError (errText e)) (fun _ => rfl)
      (.inr ⟨e, by show ListingHandler.get c readDir root target fs = _; unfold ListingHandler.get ListingHandler.getAmid; dsimp only; rw [h1], rfl⟩)
      rfl _ (cursor_trace _ _)
  · refine getGives_of (fileHandler c σ root errText) errText fs target
      (ServerResponse.fromString c .InternalServerError (errText e)) (fun _ => rfl)
      (.inr ⟨e, by show FileHandler.get c root target fs = _; unfold FileHandler.get; rw [h2], ?_⟩)
      rfl _ (cursor_trace _ _)
    rcases he with ⟨_, rfl⟩ | ⟨_, rfl⟩ | ⟨_, _, rfl⟩ <;> rfl

/-- A target that ends with a slash leads to a directory, and what may follow the slash is looked up there. -/
theorem slash_parts {fs : Fs} {target : Bytes} {R cs p : List Bytes} (ht : TargetText target cs) (hl : Leads fs R cs p)
    (hs : target.getLast? = some 47) :
    ∃ dir ds, target = dir ++ [47] ++ [] ∧ Leads fs R ds p ∧
      ∀ ref : Bytes, ref.head? ≠ some 47 → TargetText (dir ++ [47] ++ ref) (ds ++ splitPath ref) := by
  obtain ⟨dir, rfl⟩ : ∃ dir, target = dir ++ [47] := List.getLast?_eq_some_iff.1 hs
  obtain ⟨ds, hds⟩ := target_parts dir
  have := hds [] (by simp)
  rw [List.append_nil] at this
  obtain rfl := targetText_unique ht this
  obtain ⟨q, h1, n, _, h2⟩ := leads_append hl
  have : q = p := (comes_nil (comes_empty (cs := []) h2 (.inl (by simp)))).2.1.symm
  subst this
  exact ⟨dir, ds, by simp, h1, hds⟩

theorem page_item (title a item b : Bytes) : ∃ pre post, pageText title (a ++ (item ++ b)) = pre ++ item ++ post := by
  have : ∃ x y, ∀ items, pageText title items = x ++ items ++ y := ⟨_, _, fun _ => rfl⟩
  obtain ⟨x, y, h⟩ := this
  exact ⟨x ++ a, b ++ y, by rw [h]; simp only [List.append_assoc]⟩

/-- The item of an entry is in the page. -/
theorem page_entry {fs : Fs} {p : List Bytes} {items : List (Bytes × Bytes)} (hi : Items fs p items) (title n : Bytes)
    (hn : fs (p ++ [n]) ≠ none) (hname : IsName n) (hu : Unreserved n) :
    ∃ pre href post, EntryItem fs p n (itemText href n) ∧
      pageText title (items.map (·.2)).flatten = pre ++ itemText href n ++ post := by
  obtain ⟨u1, u2, u3⟩ := unreserved_ne hu
  obtain ⟨item, hitem⟩ := (hi.2.1 n).2 ⟨hn, hname, u1, u2, u3⟩
  have he : EntryItem fs p n item := hi.2.2 _ hitem
  obtain ⟨a, b, hab⟩ := List.append_of_mem hitem
  obtain ⟨href, rfl⟩ : ∃ href, item = itemText href n := by cases he <;> exact ⟨_, rfl⟩
  obtain ⟨pre, post, h⟩ := page_item title (a.map (·.2)).flatten (itemText href n) (b.map (·.2)).flatten
  refine ⟨pre, href, post, he, ?_⟩
  rw [← h, hab]
  simp

/-- Of a listing asked for with a slash at the end, the link of every entry with an unreserved name leads to that entry; if the
entry is a symbolic link, to where that leads. -/
theorem C82_links_partial {fs : Fs} {root target : Bytes} {R cs p : List Bytes} (hR : RootAt fs root R) (ht : TargetText target cs)
    (h0 : (0 : UInt8) ∉ target) (hslash : target.getLast? = some 47) (hl : Leads fs R cs p) (hp : fs p = some .dir)
    (readDir : Fs → List Bytes → List Bytes) (hls : ∀ q, fs q = some .dir → Lists (readDir fs q) fs q) (errText : Err → Bytes)
    (n : Bytes) (hn : fs (p ++ [n]) ≠ none) (hname : IsName n) (hu : Unreserved n) :
    ∃ pre href post,
      GetGives (listingHandler c σ readDir root errText) errText fs target .OK [] (pre ++ itemText href n ++ post) ∧
      ∀ target', Beside target href target' →
        (∀ content, fs (p ++ [n]) = some (.file content) → ∃ length, Numeral 10 length content.length ∧
          GetGives (listingHandler c σ readDir root errText) errText fs target' .OK [(utf8 "content-length", length)] content) ∧
        (fs (p ++ [n]) = some .dir → ∃ items, Items fs (p ++ [n]) items ∧
          GetGives (listingHandler c σ readDir root errText) errText fs target' .OK []
            (pageText target' (items.map (·.2)).flatten)) ∧
        ∀ text, fs (p ++ [n]) = some (.link text) → ∀ q, Leads fs R (cs ++ [n]) q →
          (∀ content, fs q = some (.file content) → ∃ length, Numeral 10 length content.length ∧
            GetGives (listingHandler c σ readDir root errText) errText fs target' .OK [(utf8 "content-length", length)] content) ∧
          (fs q = some .dir → ∃ items, Items fs q items ∧
            GetGives (listingHandler c σ readDir root errText) errText fs target' .OK []
              (pageText target' (items.map (·.2)).flatten)) := by
  obtain ⟨u1, u2, u3⟩ := unreserved_ne hu
  obtain ⟨items, hi, hg⟩ := C81_directory (c := c) (σ := σ) hR ht h0 hl hp readDir (hls p hp) errText
  obtain ⟨pre, href, post, he, hpage⟩ := page_entry hi target n hn hname hu
  rw [hpage] at hg
  obtain ⟨dir, ds, rfl, hd, hds⟩ := slash_parts ht hl hslash
  obtain ⟨l1, l2, _⟩ := link_leads hd hp hds hname u1
  refine ⟨pre, href, post, hg, fun target' hb => ?_⟩
  obtain rfl := beside_parts (by simp) hb
  simp only [List.append_nil, List.mem_append, not_or] at h0
  rcases entryItem_href he with ⟨e1, rfl⟩ | ⟨e1, rfl⟩
  · obtain ⟨cs2, l2, l2'⟩ := l2 e1
    refine ⟨fun content h => ?_, fun _ => ?_, fun text h => ?_⟩
    · rw [h] at e1; simp at e1
    · exact C81_directory hR l2 (by simp only [List.mem_append, not_or]; exact ⟨h0, u2, by decide⟩) l2' e1 readDir (hls _ e1) errText
    · rw [h] at e1; simp at e1
  · have h0' : (0 : UInt8) ∉ dir ++ [47] ++ href := by simp only [List.mem_append, not_or]; exact ⟨h0, u2⟩
    refine ⟨fun content' h => ?_, fun h => ?_, fun text h q hq => ?_⟩
    · obtain ⟨cs1, l1, l1'⟩ := l1 (by simp [h])
      exact C81_file hR l1 h0' l1' content' h readDir errText
    · rcases e1 with ⟨_, e1⟩ | ⟨_, e1⟩ <;> rw [h] at e1 <;> simp at e1
    · have hcs : cs = ds ++ [[]] := targetText_unique ht (hds [] (by simp))
      have ht1 := hds href (head_ne u1)
      rw [splitPath_single u1] at ht1
      have hq' : Leads fs R (ds ++ [href]) q := by
        obtain ⟨k, hk, h1⟩ := hq
        rw [hcs, List.append_assoc] at h1
        obtain ⟨p', n1, n2, rfl, k1, k2⟩ := comes_split h1
        exact ⟨_, hk, comes_trans (comes_append k1 [href]) (comes_empty k2 (.inl (by simp)))⟩
      exact ⟨fun content hc => C81_file hR ht1 h0' hq' content hc readDir errText,
        fun hdir => C81_directory hR ht1 h0' hq' hdir readDir (hls _ hdir) errText⟩

/-- Of a listing asked for without a slash at the end, by the name `last` of the directory, every such link leads to what
has the entry's name in the directory above (that in which `last` is): to a file there, or to an error if there is nothing. -/
theorem C82_elsewhere_partial {fs : Fs} {root dir last : Bytes} {R cs p : List Bytes} (hR : RootAt fs root R)
    (hlast : IsName last) (hns : (47 : UInt8) ∉ last)
    (ht : TargetText (dir ++ [47] ++ last) cs) (h0 : (0 : UInt8) ∉ dir) (hl : Leads fs R cs p)
    (readDir : Fs → List Bytes → List Bytes) (errText : Err → Bytes) :
    ∃ q, fs q = some .dir ∧ Leads fs q [last] p ∧ ((∀ text, fs (q ++ [last]) ≠ some (.link text)) → p = q ++ [last]) ∧
      ∀ n href target', IsName n → Unreserved n → EntryItem fs p n (itemText href n) → Beside (dir ++ [47] ++ last) href target' →
      (∀ content', fs (p ++ [n]) ≠ some .dir → fs (q ++ [n]) = some (.file content') →
        ∃ length, Numeral 10 length content'.length ∧
          GetGives (listingHandler c σ readDir root errText) errText fs target' .OK [(utf8 "content-length", length)] content') ∧
      (fs (q ++ [n]) = none →
        GetGives (listingHandler c σ readDir root errText) errText fs target' .InternalServerError [] (errText notFound)) := by
  obtain ⟨ds, hds⟩ := target_parts dir
  have hcs := targetText_unique ht (hds last (head_ne hns))
  rw [splitPath_single hns] at hcs
  subst hcs
  obtain ⟨q, hq, h2⟩ := leads_append hl
  have hqd : fs q = some .dir ∧ ((∀ text, fs (q ++ [last]) ≠ some (.link text)) → p = q ++ [last]) := by
    obtain ⟨k, hk, h2⟩ := h2
    cases h2 with
    | stay _ h => exact absurd h (by rintro (h | h); exact hlast.1 h; exact hlast.2.1 h)
    | up => exact absurd rfl hlast.2.2
    | down h1 _ _ h => exact ⟨h1, fun _ => (comes_nil h).2.1⟩
    | relative h1 _ h => exact ⟨h1, fun hx => absurd h (hx _)⟩
    | absolute h1 _ h => exact ⟨h1, fun hx => absurd h (hx _)⟩
  refine ⟨q, hqd.1, h2, hqd.2, fun n href target' hname hu he hb => ?_⟩
  obtain ⟨u1, u2, u3⟩ := unreserved_ne hu
  obtain ⟨l1, _, l3⟩ := link_leads hq hqd.1 hds hname u1
  obtain rfl := beside_parts hns hb
  have gone : ∀ {target cs}, TargetText target cs → (0 : UInt8) ∉ target →
      (fs.walk R cs = .error notFound ∨ ∃ p, fs.walk R cs = .ok p ∧ fs p = none) →
      GetGives (listingHandler c σ readDir root errText) errText fs target .InternalServerError [] (errText notFound) := by
    intro target cs ht h0 hw
    have ha : Absent fs R cs := by
      intro p hp
      rw [← walk_iff] at hp
      rcases hw with hw | ⟨p', hw, h⟩ <;> rw [hw] at hp
      · simp at hp
      · rw [Except.ok.injEq] at hp; rw [← hp]; exact h
    obtain ⟨e, k1, k2, _⟩ := C84_absent_partial (c := c) (σ := σ) hR ht h0 ha readDir errText
    rcases k1 with ⟨k, _⟩ | ⟨k, _⟩ | ⟨_, _, rfl⟩
    · rw [← walk_notDir] at k; rcases hw with hw | ⟨p', hw, _⟩ <;> rw [hw] at k <;> simp [notDir, notFound] at k
    · rw [← walk_tangled] at k; rcases hw with hw | ⟨p', hw, _⟩ <;> rw [hw] at k <;> simp [tooManyLinks, notFound] at k
    · exact k2
  rcases entryItem_href he with ⟨e1, rfl⟩ | ⟨e1, rfl⟩
  · refine ⟨fun content h => absurd e1 h, fun h => ?_⟩
    obtain ⟨cs3, l3, l3'⟩ := l3 h
    exact gone l3 (by simp only [List.mem_append, not_or]; exact ⟨⟨h0, by decide⟩, u2, by decide⟩) (.inl l3')
  · have h0' : (0 : UInt8) ∉ dir ++ [47] ++ href := by simp only [List.mem_append, not_or]; exact ⟨⟨h0, by decide⟩, u2⟩
    refine ⟨fun content' _ h => ?_, fun h => ?_⟩
    · obtain ⟨cs1, l1, l1'⟩ := l1 (by simp [h])
      exact C81_file hR l1 h0' l1' content' h readDir errText
    · obtain ⟨cs1, l1, l1'⟩ := l1 (by simp [h])
      exact gone l1 h0' (.inr ⟨_, walk_iff.2 l1', h⟩)

/-! ### C83 -/

theorem item_count {fs : Fs} {p : List Bytes} {n i : Bytes} (h : EntryItem fs p n i) : i.count 60 = 4 + 2 * n.count 60 := by
  have key : ∀ href, (itemText href n).count 60 = 4 + href.count 60 + n.count 60 := by
    intro href
    rw [itemText_eq]
    simp only [List.count_append]
    rw [show List.count (60 : UInt8) b!"<li><a href=\"" = 2 by decide, show List.count (60 : UInt8) b!"\">" = 0 by decide,
      show List.count (60 : UInt8) b!"</a></br>" = 2 by decide]
    omega
  cases h with
  | dir _ =>
    rw [key, List.count_append, show List.count (60 : UInt8) [47] = 0 by decide]
    omega
  | file _ => rw [key]; omega
  | link _ => rw [key]; omega

theorem items_count {fs : Fs} {p : List Bytes} {items : List (Bytes × Bytes)} (h : ∀ x ∈ items, EntryItem fs p x.1 x.2) :
    (items.map (·.2)).flatten.count 60 = 4 * items.length + 2 * (items.map fun x => x.1.count 60).sum := by
  induction items with
  | nil => rfl
  | cons x items ih =>
    rw [List.map_cons, List.flatten_cons, List.count_append, ih (fun y hy => h y (List.mem_cons_of_mem _ hy)),
      item_count (h x List.mem_cons_self), List.map_cons, List.sum_cons, List.length_cons]
    omega

theorem page_count (title items : Bytes) : (pageText title items).count 60 = 12 + 2 * title.count 60 + items.count 60 := by
  rw [← pageText_eq]
  unfold listPage
  simp only [List.count_append]
  rw [show List.count (60 : UInt8) b!"\n                <html>\n                <title>Directory listing for " = 2 by decide +kernel,
    show List.count (60 : UInt8) b!"</title>\n                <h2>Directory listing for " = 2 by decide +kernel,
    show List.count (60 : UInt8) b!"</h2>\n                <body>\n                <hr>\n                <ul>\n                " = 4 by
      decide +kernel,
    show List.count (60 : UInt8)
      b!"\n                </ul>\n                <hr>\n                </body>\n                </html>\n            " = 4 by
      decide +kernel]
  omega

/-- The page of a listing has the tags of its template (twelve, and four for each item) and no others, exactly if neither
the target nor a listed name has a `<` in it. -/
theorem C83_markup_partial {fs : Fs} {root target : Bytes} {R cs p : List Bytes} (hR : RootAt fs root R) (ht : TargetText target cs)
    (h0 : (0 : UInt8) ∉ target) (hl : Leads fs R cs p) (hp : fs p = some .dir)
    (readDir : Fs → List Bytes → List Bytes) (hls : Lists (readDir fs p) fs p) (errText : Err → Bytes) :
    ∃ items page, Items fs p items ∧
      GetGives (listingHandler c σ readDir root errText) errText fs target .OK [] page ∧
      (page.count 60 = 12 + 4 * items.length ↔ (60 : UInt8) ∉ target ∧ ∀ x ∈ items, (60 : UInt8) ∉ x.1) := by
  obtain ⟨items, hi, hg⟩ := C81_directory (c := c) (σ := σ) hR ht h0 hl hp readDir hls errText
  refine ⟨items, _, hi, hg, ?_⟩
  rw [page_count, items_count hi.2.2, ← List.count_eq_zero]
  have hsum : (items.map fun x => x.1.count 60).sum = 0 ↔ ∀ x ∈ items, (60 : UInt8) ∉ x.1 := by
    clear hg hi
    induction items with
    | nil => simp
    | cons x items ih =>
      rw [List.map_cons, List.sum_cons, Nat.add_eq_zero_iff, ih, List.count_eq_zero]
      simp
  rw [← hsum]
  omega

end

/-! ### Witnesses, and what is false -/

/-- `/srv/a`, `/srv/d/a`, `/srv/d/b` and a file whose name is a tag. -/
def listedFs : Fs := fun p =>
  if p = [] ∨ p = [b!"srv"] ∨ p = [b!"srv", b!"d"] then some .dir
  else if p = [b!"srv", b!"a"] then some (.file b!"old")
  else if p = [b!"srv", b!"d", b!"a"] then some (.file b!"new")
  else if p = [b!"srv", b!"d", b!"b"] then some (.file b!"other")
  else none

/-- The names in a directory, for file systems that have no names but these. -/
def someNames (fs : Fs) (p : List Bytes) : List Bytes :=
  [b!"a", b!"d", b!"srv", b!"b", b!"<h1>"].filter fun n => fs (p ++ [n]) ≠ none

theorem listedFs_root : RootAt listedFs b!"/srv" [b!"srv"] :=
  ⟨by decide, by decide, by decide, [[], b!"srv"], splitPath_iff.2 (by decide), comes_of_walk (by rfl)⟩

theorem listedFs_lists (p : List Bytes) : Lists (someNames listedFs p) listedFs p := by
  refine ⟨List.Pairwise.filter _ (by decide), fun n => ?_⟩
  unfold someNames
  rw [List.mem_filter, decide_eq_true_iff]
  refine ⟨fun ⟨h1, h2⟩ => ⟨h2, ?_⟩, fun ⟨h1, _⟩ => ⟨?_, h1⟩⟩
  · simp only [List.mem_cons, List.not_mem_nil, or_false] at h1
    rcases h1 with rfl | rfl | rfl | rfl | rfl <;> exact ⟨⟨by decide, by decide, by decide⟩, by decide, by decide⟩
  · have key : ∀ (q : List Bytes) (m : Bytes), p ++ [n] = q ++ [m] → n = m := by
      intro q m h
      have := congrArg List.getLast? h
      simpa using this
    unfold listedFs at h1
    split at h1
    · rename_i h
      rcases h with h | h | h
      · simp at h
      · rw [key [] _ h]; decide
      · rw [key [b!"srv"] _ h]; decide
    · split at h1
      · rename_i h; rw [key [b!"srv"] _ h]; decide
      · split at h1
        · rename_i h; rw [key [b!"srv", b!"d"] _ h]; decide
        · split at h1
          · rename_i h; rw [key [b!"srv", b!"d"] _ h]; decide
          · exact absurd rfl h1

/-- Witness for `C81_file`, `C81_directory` and `C81_sent`: the hypotheses hold, and the runs are evaluated. -/
example : let _ := asciiCase
    let server := listingHandler ⟨true⟩ (Duplex Wire Sink) someNames b!"/srv" fun _ => []
    TargetText b!"/d/a" [b!"d", b!"a"] ∧ Leads listedFs [b!"srv"] [b!"d", b!"a"] [b!"srv", b!"d", b!"a"] ∧
    TargetText b!"/d/" [b!"d", []] ∧ Leads listedFs [b!"srv"] [b!"d", []] [b!"srv", b!"d"] ∧
    (server.serveOne (fun _ => []) (.ok (requestConn b!"GET /d/a HTTP/1.1\r\n\r\n")) listedFs).2.1.map sent =
      some b!"HTTP/1.1 200 OK\r\ncontent-length: 3\r\n\r\nnew" ∧
    (server.serveOne (fun _ => []) (.ok (requestConn b!"GET /d/ HTTP/1.1\r\n\r\n")) listedFs).2.1.map sent =
      some (b!"HTTP/1.1 200 OK\r\n\r\n" ++ pageText b!"/d/" (itemText b!"a" b!"a" ++ itemText b!"b" b!"b")) := by
  intro inst server
  exact ⟨⟨1, b!"d/a", rfl, by decide, splitPath_iff.2 (by decide)⟩, walk_iff.1 (by rfl),
    ⟨1, b!"d/", rfl, by decide, splitPath_iff.2 (by decide)⟩, walk_iff.1 (by rfl), by decide +kernel, by decide +kernel⟩

/-- Where a symbolic link among the entries leads: with it `C82_links_partial` says what its item gives. -/
example : let fs : Fs := fun p => if p = [b!"srv", b!"b"] then some (.link b!"d/a") else listedFs p
    Leads fs [b!"srv"] ([[]] ++ [b!"b"]) [b!"srv", b!"d", b!"a"] ∧ fs [b!"srv", b!"d", b!"a"] = some (.file b!"new") ∧
    EntryItem fs [b!"srv"] b!"b" (itemText b!"b" b!"b") := by
  intro fs
  exact ⟨walk_iff.1 (by rfl), by decide, .link (text := b!"d/a") (by decide)⟩

/-- Witness for `C82_links_partial`: the link to `d` in the listing of `/`. -/
example : let _ := asciiCase
    ∃ pre href post,
      GetGives (c := ⟨false⟩) (listingHandler ⟨false⟩ (Duplex Wire Sink) someNames b!"/srv" fun _ => []) (fun _ => []) listedFs
        b!"/" .OK [] (pre ++ itemText href b!"d" ++ post) := by
  intro inst
  obtain ⟨pre, href, post, h, _⟩ := C82_links_partial (c := ⟨false⟩) (σ := Duplex Wire Sink) (cs := [[]]) (p := [b!"srv"])
    (target := b!"/") listedFs_root ⟨1, [], rfl, by decide, splitPath_iff.2 (by decide)⟩ (by decide) (by decide)
    (walk_iff.1 (by rfl)) (by decide) someNames (fun q _ => listedFs_lists q) (fun _ => []) b!"d" (by decide)
    ⟨by decide, by decide, by decide⟩ (by intro b hb; simp only [List.mem_singleton] at hb; subst hb; decide)
  exact ⟨pre, href, post, h⟩

/-- False without the slash (and a witness for `C82_elsewhere_partial`): the listing of `/d` has the links `a` and `b`; a
browser takes them for `/a` and `/b`; the first is another file, the second is not there. -/
theorem C82_links_false (c : Cfg) : let _ := asciiCase
    let server := listingHandler c (Duplex Wire Sink) someNames b!"/srv" fun _ => utf8 "error"
    let get (target : Bytes) := (server.serveOne (fun _ => []) (.ok (requestConn (utf8 "GET " ++ target ++ utf8 " HTTP/1.1\r\n\r\n"))) listedFs).2.1.map sent
    (∀ p, Lists (someNames listedFs p) listedFs p) ∧
    listedFs [b!"srv", b!"d"] = some .dir ∧ listedFs [b!"srv", b!"d", b!"a"] = some (.file (utf8 "new")) ∧
    listedFs [b!"srv", b!"d", b!"b"] = some (.file (utf8 "other")) ∧
    get (utf8 "/d") = some (utf8 "HTTP/1.1 200 OK\r\n\r\n" ++
      pageText (utf8 "/d") (itemText (utf8 "a") (utf8 "a") ++ itemText (utf8 "b") (utf8 "b"))) ∧
    (∀ target, Beside (utf8 "/d") (utf8 "a") target → get target = some (utf8 "HTTP/1.1 200 OK\r\ncontent-length: 3\r\n\r\nold")) ∧
    ∀ target, Beside (utf8 "/d") (utf8 "b") target → get target = some (utf8 "HTTP/1.1 500 Internal Server Error\r\n\r\nerror") := by
  intro inst server get
  have hb : ∀ ref target, Beside (utf8 "/d") ref target → target = b!"/" ++ ref := by
    intro ref target h
    have h' : Beside ([] ++ [47] ++ b!"d") ref target := by
      rw [show ([] ++ [47] ++ b!"d" : Bytes) = utf8 "/d" by decide +kernel]; exact h
    rw [beside_parts (by decide) h']
    rfl
  refine ⟨listedFs_lists, by decide, by decide +kernel, by decide +kernel, ?_, ?_, ?_⟩
  · rcases c with ⟨_ | _⟩ <;> decide +kernel
  · intro target h
    rw [hb _ _ h]
    rcases c with ⟨_ | _⟩ <;> decide +kernel
  · intro target h
    rw [hb _ _ h]
    rcases c with ⟨_ | _⟩ <;> decide +kernel

/-- False in general: who may store a file can put tags into the page that others are shown. -/
theorem C83_markup_false (c : Cfg) : let _ := asciiCase
    let server := listingHandler c (Duplex Wire Sink) someNames b!"/srv" fun _ => []
    let put := requestConn b!"PUT /<h1> HTTP/1.1\r\ncontent-length: 0\r\n\r\n"
    let get := requestConn b!"GET / HTTP/1.1\r\n\r\n"
    ∃ page, ((server.serveForever (fun _ => []) [.ok put, .ok get] listedFs).1.map fun x => x.2.map sent) =
        [some b!"HTTP/1.1 200 OK\r\n\r\n", some (b!"HTTP/1.1 200 OK\r\n\r\n" ++ page)] ∧
      b!"\"><h1></a>" <:+: page ∧ page.count 60 ≠ 12 + 4 * 3 := by
  intro inst server put get
  refine ⟨pageText b!"/" (itemText b!"a" b!"a" ++ itemText b!"d/" b!"d" ++ itemText b!"<h1>" b!"<h1>"), ?_, ?_, by decide +kernel⟩
  · rcases c with ⟨_ | _⟩ <;> decide +kernel
  · decide +kernel

/-- Witness for `C83_markup_partial`: the listing of `/d`. -/
example : let _ := asciiCase
    ∃ items page, Items listedFs [b!"srv", b!"d"] items ∧
      GetGives (c := ⟨true⟩) (listingHandler ⟨true⟩ (Duplex Wire Sink) someNames b!"/srv" fun _ => []) (fun _ => []) listedFs
        b!"/d" .OK [] page ∧ items ≠ [] := by
  intro inst
  obtain ⟨items, page, h1, h2, _⟩ := C83_markup_partial (c := ⟨true⟩) (σ := Duplex Wire Sink) (cs := [b!"d"]) (p := [b!"srv", b!"d"])
    (target := b!"/d") listedFs_root ⟨1, b!"d", rfl, by decide, splitPath_iff.2 (by decide)⟩ (by decide)
    (walk_iff.1 (by rfl)) (by decide) someNames (listedFs_lists _) (fun _ => [])
  refine ⟨items, page, h1, h2, ?_⟩
  rintro rfl
  obtain ⟨i, hi⟩ := (h1.2.1 b!"a").2 ⟨by decide, ⟨by decide, by decide, by decide⟩, by decide, by decide, (validUtf8_iff _).1 (by decide)⟩
  simp at hi

/-- Full statement: a GET of something that is not there is answered with 404. False, with both file servers (and a
witness for `C84_absent_partial`). -/
theorem C84_absent_false (c : Cfg) : let _ := asciiCase
    let conn := requestConn b!"GET /nothing HTTP/1.1\r\n\r\n"
    Absent listedFs [b!"srv"] [b!"nothing"] ∧ TargetText b!"/nothing" [b!"nothing"] ∧
    ((listingHandler c (Duplex Wire Sink) someNames b!"/srv" fun _ => utf8 "no").serveOne (fun _ => utf8 "no") (.ok conn) listedFs).2.1.map sent =
      some (utf8 "HTTP/1.1 500 Internal Server Error\r\n\r\nno") ∧
    ((fileHandler c (Duplex Wire Sink) b!"/srv" fun _ => utf8 "no").serveOne (fun _ => utf8 "no") (.ok conn) listedFs).2.1.map sent =
      some (utf8 "HTTP/1.1 500 Internal Server Error\r\n\r\nno") := by
  intro inst conn
  refine ⟨?_, ⟨1, b!"nothing", rfl, by decide, splitPath_iff.2 (by decide)⟩, ?_, ?_⟩
  · intro p hp
    rw [← walk_iff, show listedFs.walk [b!"srv"] [b!"nothing"] = .ok [b!"srv", b!"nothing"] from rfl, Except.ok.injEq] at hp
    rw [← hp]; decide
  · rcases c with ⟨_ | _⟩ <;> decide +kernel
  · rcases c with ⟨_ | _⟩ <;> decide +kernel

/-- The listing server, too, is led out of the directory that is served, and shows what is there. -/
theorem C67_listing_false (c : Cfg) : let _ := asciiCase
    let server := listingHandler c (Duplex Wire Sink) someNames b!"/srv/d" fun _ => []
    RootAt listedFs b!"/srv/d" [b!"srv", b!"d"] ∧ ¬ [b!"srv", b!"d"] <+: [b!"srv", b!"a"] ∧
    (server.serveOne (fun _ => []) (.ok (requestConn b!"GET /../ HTTP/1.1\r\n\r\n")) listedFs).2.1.map sent =
      some (b!"HTTP/1.1 200 OK\r\n\r\n" ++ pageText b!"/../" (itemText b!"a" b!"a" ++ itemText b!"d/" b!"d")) ∧
    (server.serveOne (fun _ => []) (.ok (requestConn b!"GET /../a HTTP/1.1\r\n\r\n")) listedFs).2.1.map sent =
      some b!"HTTP/1.1 200 OK\r\ncontent-length: 3\r\n\r\nold" := by
  intro inst server
  refine ⟨⟨by decide, by decide, by decide, [[], b!"srv", b!"d"], splitPath_iff.2 (by decide), comes_of_walk (by rfl)⟩, by decide, ?_, ?_⟩ <;>
    rcases c with ⟨_ | _⟩ <;> decide +kernel

/-- There is a file on the way to `/a/x`, and none on the way to `/nothing`. -/
example : Absent listedFs [b!"srv"] [b!"a", b!"x"] ∧ Blocked listedFs [b!"srv"] [b!"a", b!"x"] ∧
    Absent listedFs [b!"srv"] [b!"nothing"] ∧ ¬ Blocked listedFs [b!"srv"] [b!"nothing"] := by
  refine ⟨fun p hp => ?_, walk_notDir.1 (by rfl), fun p hp => ?_, fun hb => ?_⟩
  · rw [← walk_iff, walk_notDir.2 (walk_notDir.1 (by rfl))] at hp; simp at hp
  · rw [← walk_iff, show listedFs.walk [b!"srv"] [b!"nothing"] = .ok [b!"srv", b!"nothing"] from rfl, Except.ok.injEq] at hp
    rw [← hp]; decide
  · rw [← walk_notDir, show listedFs.walk [b!"srv"] [b!"nothing"] = .ok [b!"srv", b!"nothing"] from rfl] at hb
    simp at hb

/-- `/srv/b` is a link that leads to itself. -/
def tangledFs : Fs := fun p =>
  if p = [] ∨ p = [b!"srv"] ∨ p = [b!"srv", b!"d"] then some .dir
  else if p = [b!"srv", b!"a"] then some (.file b!"old")
  else if p = [b!"srv", b!"d", b!"a"] then some (.file b!"new")
  else if p = [b!"srv", b!"b"] then some (.link b!"b")
  else none

/-- A link that leads to itself is followed too often. -/
example : Absent tangledFs [b!"srv"] [b!"b"] ∧ Tangled tangledFs [b!"srv"] [b!"b"] ∧ ¬ Blocked tangledFs [b!"srv"] [b!"b"] := by
  have h : tangledFs.walk [b!"srv"] [b!"b"] = .error tooManyLinks := by rfl
  refine ⟨fun p hp => ?_, walk_tangled.1 h, fun hb => ?_⟩
  · rw [← walk_iff, h] at hp; simp at hp
  · rw [← walk_notDir, h] at hb; simp [notDir, tooManyLinks] at hb

/-- A link to a directory is listed without a slash after it (its metadata are those of the link), although what it leads to
is listed when it is asked for: then the links of that listing lead elsewhere, even if every link followed was one of a
listing. Here `/d/` shows `d`, which leads to `/srv`; `/d/d` shows the `a` that is there, and a browser takes that for `/d/a`. -/
theorem C82_symlink_false (c : Cfg) : let _ := asciiCase
    let fs : Fs := fun p => if p = [b!"srv", b!"d", b!"d"] then some (.link b!"..") else tangledFs p
    let server := listingHandler c (Duplex Wire Sink) someNames b!"/srv" fun _ => utf8 "error"
    let get (target : String) := (server.serveOne (fun _ => []) (.ok (requestConn (utf8 "GET " ++ utf8 target ++ utf8 " HTTP/1.1\r\n\r\n"))) fs).2.1.map sent
    get "/d/" = some (utf8 "HTTP/1.1 200 OK\r\n\r\n" ++
      pageText (utf8 "/d/") (itemText (utf8 "a") (utf8 "a") ++ itemText (utf8 "d") (utf8 "d"))) ∧
    get "/d/d" = some (utf8 "HTTP/1.1 200 OK\r\n\r\n" ++
      pageText (utf8 "/d/d") (itemText (utf8 "a") (utf8 "a") ++ itemText (utf8 "d/") (utf8 "d") ++ itemText (utf8 "b") (utf8 "b"))) ∧
    Beside (utf8 "/d/d") (utf8 "a") (utf8 "/d/a") ∧ fs [b!"srv", b!"a"] = some (.file (utf8 "old")) ∧
    get "/d/a" = some (utf8 "HTTP/1.1 200 OK\r\ncontent-length: 3\r\n\r\nnew") := by
  intro inst fs server get
  refine ⟨?_, ?_, ⟨utf8 "/d", utf8 "d", by decide +kernel, by decide +kernel, by decide +kernel⟩, by decide +kernel, ?_⟩ <;>
    rcases c with ⟨_ | _⟩ <;> decide +kernel

/-- The hypotheses of `C67_listing_partial`: two file systems that differ outside `/srv`, and a target that stays inside. -/
example : let fs' := listedFs.set [b!"secret"] b!"s3cret"
    RootAt listedFs b!"/srv" [b!"srv"] ∧ RootAt fs' b!"/srv" [b!"srv"] ∧
    (∀ q, [b!"srv"] <+: q → listedFs q = fs' q) ∧ listedFs [b!"secret"] ≠ fs' [b!"secret"] ∧
    (∀ fs fs' p, (∀ q, p <+: q → fs q = fs' q) → someNames fs p = someNames fs' p) ∧
    TargetText b!"/d/../a" [b!"d", b!"..", b!"a"] ∧ Confined listedFs [b!"srv"] [b!"d", b!"..", b!"a"] := by
  refine ⟨listedFs_root, ⟨by decide, by decide, by decide, [[], b!"srv"], splitPath_iff.2 (by decide), comes_of_walk (by rfl)⟩, ?_, by decide, ?_,
    ⟨1, b!"d/../a", rfl, by decide, splitPath_iff.2 (by decide)⟩, .inl ⟨?_, ?_⟩⟩
  · rintro q ⟨t, rfl⟩
    unfold Fs.set
    rw [if_neg (by intro h; simp at h)]
  · intro fs fs' p h
    unfold someNames
    exact congrArg (fun f => List.filter f _) (funext fun n => by rw [h (p ++ [n]) (List.prefix_append _ _)])
  · intro q _ text h
    unfold listedFs at h
    split at h
    · simp at h
    · split at h
      · simp at h
      · split at h
        · simp at h
        · split at h <;> simp at h
  · intro pre hpre
    rw [List.prefix_iff_eq_take] at hpre
    rw [hpre]
    generalize pre.length = k
    match k with
    | 0 => decide
    | 1 => decide
    | 2 => decide
    | k + 3 => rw [List.take_of_length_le (by simp)]; decide

end HttpIo
