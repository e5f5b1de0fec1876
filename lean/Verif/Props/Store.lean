import Verif.Lemmas.Store

/-! C148: what is uploaded to the file server through the client is what is downloaded from it. -/

namespace HttpIo
open Spec LawfulReader

section
variable [CaseMap] {c c' : Cfg}

theorem untouched_cons {v : Ask × List Bytes} {vs : List (Ask × List Bytes)} {p : List Bytes} :
    Untouched (v :: vs) p ↔ (v.2 = p → v.1.put = false) ∧ Untouched vs p := by
  unfold Untouched
  simp

theorem current_cons {fs : Fs} {q : Ask} {p p' : List Bytes} {vs : List (Ask × List Bytes)} {content : Bytes}
    (h : Current fs ((q, p) :: vs) p' content) :
    Current (if q.put then fs.set p (written q.writes).flatten else fs) vs p' content := by
  rcases h with ⟨before, q', after, h1, h2, h3, h4⟩ | ⟨h1, h2⟩
  · cases before with
    | nil =>
      simp only [List.nil_append, List.cons.injEq, Prod.mk.injEq] at h1
      obtain ⟨⟨rfl, rfl⟩, rfl⟩ := h1
      refine .inr ⟨h3, ?_⟩
      rw [h2, if_pos rfl, h4]
      unfold Fs.set
      rw [if_pos rfl]
    | cons v before =>
      simp only [List.cons_append, List.cons.injEq] at h1
      exact .inl ⟨before, q', after, h1.2, h2, h3, h4⟩
  · rw [untouched_cons] at h1
    refine .inr ⟨h1.2, ?_⟩
    by_cases e : p = p'
    · rw [h1.1 e, if_neg (by simp), h2]
    · split
      · unfold Fs.set
        rw [if_neg (Ne.symm e), h2]
      · exact h2

theorem current_nil {fs : Fs} {p : List Bytes} {content : Bytes} (h : Current fs [] p content) : fs p = some (.file content) := by
  rcases h with ⟨before, q', after, h1, _⟩ | ⟨_, h2⟩
  · simp at h1
  · exact h2

theorem leads_next {fs : Fs} {R p p' : List Bytes} {q q' : Ask} (h : LeadsTo fs R q p) (h' : LeadsTo fs R q' p') :
    LeadsTo (if q.put then fs.set p (written q.writes).flatten else fs) R q' p' := by
  split
  · exact h'.set h.2.2.2 _
  · exact h'

theorem root_next {fs : Fs} {root : Bytes} {R p : List Bytes} {q : Ask} (hR : RootAt fs root R) (h : LeadsTo fs R q p) :
    RootAt (if q.put then fs.set p (written q.writes).flatten else fs) root R := by
  split
  · exact hR.set h.2.2.2 _
  · exact hR

/-- Clients visit the file server of the documentation one after the other, with uploads and downloads. A download of a file is
answered with 200 and what the last upload to the same place before it has written (or what was there at first), and the client
reads just that; an upload is answered with 200. This is so however the bytes move and whatever the pipes hold. -/
theorem C148_answers {fs fs' : Fs} {root : Bytes} {R : List Bytes} (hR : RootAt fs root R) (errText : Err → Bytes) (ku kd : Nat)
    (vs : List (Ask × List Bytes)) (hv : ∀ v ∈ vs, LeadsTo fs R v.1 v.2) (os : List Outcome)
    (h : Sessions c (fileHandler c' Sock root errText) errText ku kd fs (vs.map (·.1)) os fs') :
    os.length = vs.length ∧ ∀ before q p after, vs = before ++ (q, p) :: after →
      (q.put = true → ∃ rs, os[before.length]? = some (.got .OK .new rs) ∧ (0 < q.sizes.length → ReadAll rs [])) ∧
      (q.put = false → ∀ content, Current fs before p content →
        ∃ rs, os[before.length]? = some (.got .OK .new rs) ∧ (content.length < q.sizes.length → ReadAll rs content)) := by
  induction vs generalizing fs os with
  | nil =>
    cases h
    exact ⟨rfl, by simp⟩
  | cons v vs ih =>
    obtain ⟨q, p⟩ := v
    have hq := hv (q, p) (by simp)
    dsimp only at hq
    simp only [List.map_cons] at h
    cases h with
    | visit req resp x hrun hdone hreq hresp hrest =>
      rename_i os n
      rw [visit_becomes (fun _ _ => rfl) hq.1 (file_becomes hR hq errText) hrun hreq] at hrest
      obtain ⟨i1, i2⟩ := ih (root_next hR hq) (fun v' hv' => leads_next hq (hv v' (by simp [hv']))) _ hrest
      refine ⟨by simp [i1], fun before q' p' after e => ?_⟩
      cases before with
      | nil =>
        simp only [List.nil_append, List.cons.injEq, Prod.mk.injEq] at e
        obtain ⟨⟨rfl, rfl⟩, rfl⟩ := e
        obtain ⟨hr, h0, ⟨cs, ht, hl⟩, hp⟩ := hq
        refine ⟨fun hput => ?_, fun hput content hc => ?_⟩
        · obtain ⟨rs, g1, g2⟩ := visit_gets (r := HttpResponse.new c' .OK (.B ⟨[]⟩)) hr (fileHandler_onlyReads root errText)
            (upload_replies q hput hR ht h0 hl hp errText) (.inl rfl) (ok_answers c' ⟨[]⟩ [] rfl) hrun hreq hresp
          exact ⟨rs, congrArg some g1, g2⟩
        · have hf := current_nil hc
          obtain ⟨rs, g1, g2⟩ := visit_gets (r := HttpResponse.new c' .OK (.B ⟨[.data content]⟩)) hr
            (fileHandler_onlyReads root errText) (download_replies q hput hR ht h0 hl hf errText) (.inl rfl) (file_answers content)
            hrun hreq hresp
          exact ⟨rs, congrArg some g1, g2⟩
      | cons v before =>
        simp only [List.cons_append, List.cons.injEq] at e
        obtain ⟨rfl, e⟩ := e
        obtain ⟨j1, j2⟩ := i2 before q' p' after e
        refine ⟨j1, fun hput content hc => j2 hput content (current_cons hc)⟩

/-- Afterwards there is at every place what the last upload to it has written; what was uploaded nowhere is as before. -/
theorem C148_stored {fs fs' : Fs} {root : Bytes} {R : List Bytes} (hR : RootAt fs root R) (errText : Err → Bytes) (ku kd : Nat)
    (vs : List (Ask × List Bytes)) (hv : ∀ v ∈ vs, LeadsTo fs R v.1 v.2) (os : List Outcome)
    (h : Sessions c (fileHandler c' Sock root errText) errText ku kd fs (vs.map (·.1)) os fs') :
    (∀ p content, Current fs vs p content → fs' p = some (.file content)) ∧ ∀ p, Untouched vs p → fs' p = fs p := by
  induction vs generalizing fs os with
  | nil =>
    cases h
    exact ⟨fun p content hc => current_nil hc, fun _ _ => rfl⟩
  | cons v vs ih =>
    obtain ⟨q, p⟩ := v
    have hq := hv (q, p) (by simp)
    dsimp only at hq
    simp only [List.map_cons] at h
    cases h with
    | visit req resp x hrun hdone hreq hresp hrest =>
      rw [visit_becomes (fun _ _ => rfl) hq.1 (file_becomes hR hq errText) hrun hreq] at hrest
      obtain ⟨i1, i2⟩ := ih (root_next hR hq) (fun v' hv' => leads_next hq (hv v' (by simp [hv']))) _ hrest
      refine ⟨fun p' content hc => i1 p' content (current_cons hc), fun p' hu => ?_⟩
      rw [untouched_cons] at hu
      rw [i2 p' hu.2]
      by_cases e : p = p'
      · rw [hu.1 e, if_neg (by simp)]
      · split
        · unfold Fs.set
          rw [if_neg (Ne.symm e)]
        · rfl

/-- After any such visits the next one completes, if the pipes hold two bytes and one: no scheduling makes the two wait for each
other for ever. -/
theorem C148_goes_on {fs fs' : Fs} {root : Bytes} {R : List Bytes} (hR : RootAt fs root R) (errText : Err → Bytes) (ku kd : Nat)
    (vs : List (Ask × List Bytes)) (hv : ∀ v ∈ vs, LeadsTo fs R v.1 v.2) (os : List Outcome)
    (h : Sessions c (fileHandler c' Sock root errText) errText ku kd fs (vs.map (·.1)) os fs') (q : Ask) (p : List Bytes)
    (hq : LeadsTo fs R q p) (hu : 2 ≤ ku) (hd : 1 ≤ kd) :
    (q.put = true → Completes c q (serving (fileHandler c' Sock root errText) errText fs') .OK .new [] ku kd) ∧
    (q.put = false → ∀ content, Current fs vs p content →
      Completes c q (serving (fileHandler c' Sock root errText) errText fs') .OK .new content ku kd) := by
  induction vs generalizing fs os with
  | nil =>
    cases h
    obtain ⟨hr, h0, ⟨cs, ht, hl⟩, hp⟩ := hq
    exact ⟨fun hput => C100_upload q hr hput hR ht h0 hl hp errText ku kd hu hd,
      fun hput content hc => C100_download q hr hput hR ht h0 hl (current_nil hc) errText ku kd hu hd⟩
  | cons v vs ih =>
    obtain ⟨q', p'⟩ := v
    have hq' := hv (q', p') (by simp)
    dsimp only at hq'
    simp only [List.map_cons] at h
    cases h with
    | visit req resp x hrun hdone hreq hresp hrest =>
      rw [visit_becomes (fun _ _ => rfl) hq'.1 (file_becomes hR hq' errText) hrun hreq] at hrest
      obtain ⟨i1, i2⟩ := ih (root_next hR hq') (fun v' hv' => leads_next hq' (hv v' (by simp [hv']))) _ hrest (leads_next hq' hq)
      exact ⟨i1, fun hput content hc => i2 hput content (current_cons hc)⟩

/-- Such visits exist: any sequence of uploads and of downloads of files that are there when they are asked for can take place. -/
theorem C148_possible {fs : Fs} {root : Bytes} {R : List Bytes} (hR : RootAt fs root R) (errText : Err → Bytes) (ku kd : Nat)
    (hu : 2 ≤ ku) (hd : 1 ≤ kd) (vs : List (Ask × List Bytes)) (hv : ∀ v ∈ vs, LeadsTo fs R v.1 v.2)
    (hc : ∀ before q p after, vs = before ++ (q, p) :: after → q.put = false → ∃ content, Current fs before p content) :
    ∃ os fs', Sessions c (fileHandler c' Sock root errText) errText ku kd fs (vs.map (·.1)) os fs' := by
  induction vs generalizing fs with
  | nil => exact ⟨[], fs, .none fs⟩
  | cons v vs ih =>
    obtain ⟨q, p⟩ := v
    have hq := hv (q, p) (by simp)
    dsimp only at hq
    obtain ⟨os, fs', hs⟩ := ih (root_next hR hq) (fun v' hv' => leads_next hq (hv v' (by simp [hv'])))
      (fun before q' p' after e hput => by
        obtain ⟨content, h⟩ := hc ((q, p) :: before) q' p' after (by rw [e]; rfl) hput
        exact ⟨content, current_cons h⟩)
    have hgo := C148_goes_on (c := c) (c' := c') hR errText ku kd [] (by simp) [] (.none fs) q p hq hu hd
    have hcomp : ∃ bs, Completes c q (serving (fileHandler c' Sock root errText) errText fs) .OK .new bs ku kd := by
      cases hput : q.put with
      | true => exact ⟨_, hgo.1 hput⟩
      | false =>
        obtain ⟨content, h⟩ := hc [] q p vs rfl hput
        exact ⟨content, hgo.2 hput content h⟩
    obtain ⟨bs, hcomp⟩ := hcomp
    obtain ⟨req, n, x, h1, h2, h3, h4⟩ := finishes hcomp
    rw [← visit_becomes (fun _ _ => rfl) hq.1 (file_becomes hR hq errText) h1 h3 x.serverFed x.serverRoom] at hs
    exact ⟨_, _, .visit req _ x h1 h2 h3 h4 hs⟩

theorem served_cons {fs : Fs} {g : Guest} {p : List Bytes} {vs : List (Guest × List Bytes)} (h : Served fs ((g, p) :: vs)) :
    Served (if g.q.put then fs.set p (written g.q.writes).flatten else fs) vs := by
  intro before g' p' after e
  obtain ⟨h1, h2, h3, h4⟩ := h ((g, p) :: before) g' p' after (by rw [e]; rfl)
  refine ⟨h1, h2, h3, ?_⟩
  cases hput : g'.q.put <;> rw [hput] at h4
  · simp only [Bool.false_eq_true, if_false, List.map_cons] at h4 ⊢
    exact current_cons h4
  · exact h4

theorem served_agenda {fs : Fs} {root : Bytes} {R : List Bytes} (hR : RootAt fs root R) (errText : Err → Bytes)
    (vs : List (Guest × List Bytes)) (hv : ∀ v ∈ vs, LeadsTo fs R v.1.q v.2) (hs : Served fs vs) :
    Agenda (fileHandler c' Sock root errText) fs (vs.map (·.1)) := by
  induction vs generalizing fs with
  | nil => exact .nil _
  | cons v vs ih =>
    obtain ⟨g, p⟩ := v
    have hq := hv (g, p) (by simp)
    dsimp only at hq
    have hb := file_becomes (c' := c') hR hq errText
    have hrest := ih (root_next hR hq) (fun v' hv' => leads_next hq (hv v' (by simp [hv']))) (served_cons hs)
    obtain ⟨h1, h2, h3, h4⟩ := hs [] g p vs rfl
    obtain ⟨hr, h0, ⟨cs, ht, hl⟩, hp⟩ := hq
    unfold Becomes at hb
    cases hput : g.q.put with
    | true =>
      rw [hput] at h3 h4 hb hrest
      simp only [if_pos] at h3 h4 hb hrest
      refine .cons (r := HttpResponse.new c' .OK (.B ⟨[]⟩)) hr
        (by rw [h3]; exact .reads hput (upload_replies g.q hput hR ht h0 hl hp errText)) (.inl rfl)
        (by rw [h4]; exact ok_answers c' ⟨[]⟩ [] rfl) h1.symm h2.symm ⟨_, ?_, fun _ => rfl⟩ hrest
      rw [hput, if_pos rfl]
      exact hb
    | false =>
      rw [hput] at h3 h4 hb hrest
      simp only [Bool.false_eq_true, if_false] at h3 h4 hb hrest
      refine .cons (r := HttpResponse.new c' .OK (.B ⟨[.data g.bs]⟩)) hr
        (by rw [h3]; exact .get hput (download_replies g.q hput hR ht h0 hl (current_nil h4) errText)) (.inl rfl)
        (file_answers g.bs) h1.symm h2.symm ⟨_, ?_, fun _ => rfl⟩ hrest
      rw [hput, if_neg (by simp)]
      exact hb

/-- Clients that come to the file server at the same time are all served, each upload and download as if they had come one after
the other in the order in which they are accepted, exactly if every client that keeps its connection open without reading on
has room for the rest of its file on the way to it. -/
theorem C148_at_once {fs : Fs} {root : Bytes} {R : List Bytes} (hR : RootAt fs root R) (errText : Err → Bytes)
    (vs : List (Guest × List Bytes)) (hv : ∀ v ∈ vs, LeadsTo fs R v.1.q v.2) (hs : Served fs vs) (ku kd : Nat) (hu : 2 ≤ ku)
    (hd : 1 ≤ kd) :
    AllServed c (fileHandler c' Sock root errText) errText fs (vs.map (·.1)) ku kd ↔
      ∀ v ∈ vs, v.1.holds = true → v.1.bs.length ≤ kd + v.1.q.sizes.length := by
  rw [C138_exact _ (fileHandler_onlyReads root errText) errText fs _ (served_agenda hR errText vs hv hs) ku kd (by omega) hd]
  constructor
  · intro h v hm
    exact (h v.1 (List.mem_map_of_mem hm)).2
  · intro h g hg
    obtain ⟨v, hm, rfl⟩ := List.mem_map.1 hg
    refine ⟨.inl ?_, h v hm⟩
    obtain ⟨before, after, e⟩ := List.append_of_mem hm
    rw [(hs before v.1 v.2 after e).2.2.1]
    split <;> omega

end

/-- An upload of `new text` to `/b`, in two writes. -/
def storeUpload : Ask :=
  ⟨true, ⟨b!"http", some b!"h", none, b!"/b", none, none, [], none⟩, [.write b!"new ", .flush, .write b!"text"], [10]⟩

/-- A download of `/b`, or of `//b`. -/
def storeDownload (path : Bytes) : Ask := ⟨false, ⟨b!"http", some b!"h", none, path, none, none, [], none⟩, [], List.replicate 9 3⟩

theorem storeUpload_leads : LeadsTo sampleFs [b!"srv"] storeUpload [b!"srv", b!"b"] :=
  ⟨plain_readable true b!"/b" _ _ ⟨by simp, isText_ascii (by decide), by decide, by decide, by unfold HasCrLf; decide⟩ (by decide)
    (by simp) (by unfold Positive; decide), by decide,
    ⟨[b!"b"], ⟨1, b!"b", rfl, by decide, splitPath_iff.2 (by decide)⟩, walk_iff.1 (by rfl)⟩, .inl (by decide)⟩

theorem storeDownload_leads : LeadsTo sampleFs [b!"srv"] (storeDownload b!"//b") [b!"srv", b!"b"] :=
  ⟨plain_readable false b!"//b" _ _ ⟨by simp, isText_ascii (by decide), by decide, by decide, by unfold HasCrLf; decide⟩
    (by simp [written]) (by simp [written]) (by unfold Positive; decide), by decide,
    ⟨[b!"b"], ⟨2, b!"b", rfl, by decide, splitPath_iff.2 (by decide)⟩, walk_iff.1 (by rfl)⟩, .inl (by decide)⟩

theorem sample_visits : ∀ v ∈ [(storeUpload, [b!"srv", b!"b"]), (storeDownload b!"//b", [b!"srv", b!"b"])],
    LeadsTo sampleFs [b!"srv"] v.1 v.2 := by
  intro v hv
  simp only [List.mem_cons, List.not_mem_nil, or_false] at hv
  rcases hv with rfl | rfl
  · exact storeUpload_leads
  · exact storeDownload_leads

theorem sample_current : Current sampleFs [(storeUpload, [b!"srv", b!"b"])] [b!"srv", b!"b"] b!"new text" :=
  .inl ⟨[], storeUpload, [], rfl, rfl, by simp [Untouched], by decide⟩

/-- Witness for the four theorems: an upload to a place where there is nothing, then a download of it under another target. The
two visits can take place, and however they do the second client reads `new text`; another visit would complete. -/
example (c c' : Cfg) : let _ := asciiCase
    let h := fileHandler c' Sock b!"/srv" fun _ => []
    (∃ os fs', Sessions c h (fun _ => []) 2 1 sampleFs [storeUpload, storeDownload b!"//b"] os fs') ∧
    ∀ os fs', Sessions c h (fun _ => []) 2 1 sampleFs [storeUpload, storeDownload b!"//b"] os fs' →
      (∃ rs, os[1]? = some (.got .OK .new rs) ∧ ReadAll rs b!"new text") ∧ fs' [b!"srv", b!"b"] = some (.file b!"new text") ∧
      Completes c (storeDownload b!"//b") (serving h (fun _ => []) fs') .OK .new b!"new text" 2 1 := by
  intro _ h
  refine ⟨C148_possible sampleFs_root _ 2 1 (by omega) (by omega) _ sample_visits ?_, fun os fs' hs => ?_⟩
  · intro before q p after e hput
    rcases before with _ | ⟨v, _ | ⟨v', _ | ⟨v'', before⟩⟩⟩ <;> simp only [List.nil_append, List.cons_append, List.cons.injEq,
      Prod.mk.injEq, List.nil_eq, List.append_eq_nil_iff, reduceCtorEq, and_false, false_and] at e
    · obtain ⟨⟨rfl, rfl⟩, _⟩ := e
      exact absurd hput (by decide)
    · obtain ⟨rfl, ⟨rfl, rfl⟩, _⟩ := e
      exact ⟨_, sample_current⟩
  · obtain ⟨_, h1⟩ := C148_answers sampleFs_root _ 2 1 _ sample_visits os hs
    obtain ⟨rs, h2, h3⟩ := (h1 [(storeUpload, [b!"srv", b!"b"])] _ _ [] rfl).2 rfl _ sample_current
    have hcur : Current sampleFs [(storeUpload, [b!"srv", b!"b"]), (storeDownload b!"//b", [b!"srv", b!"b"])]
        [b!"srv", b!"b"] b!"new text" :=
      .inl ⟨[], storeUpload, _, rfl, rfl, by simp [Untouched, storeDownload], by decide⟩
    exact ⟨⟨rs, h2, h3 (by decide)⟩, (C148_stored sampleFs_root _ 2 1 _ sample_visits os hs).1 _ _ hcur,
      (C148_goes_on sampleFs_root _ 2 1 _ sample_visits os hs _ _ storeDownload_leads (by omega) (by omega)).2 rfl _ hcur⟩

/-- Witness for `C148_at_once`: an upload, and at the same time a download that is accepted after it, by a client that then keeps
its connection open. -/
example (c c' : Cfg) : let _ := asciiCase
    AllServed c (fileHandler c' Sock b!"/srv" fun _ => []) (fun _ => []) sampleFs
      [⟨storeUpload, false, 2, .OK, .new, []⟩, ⟨storeDownload b!"//b", true, 0, .OK, .new, b!"new text"⟩] 2 1 := by
  intro _
  refine (C148_at_once sampleFs_root _ [(⟨storeUpload, false, 2, .OK, .new, []⟩, [b!"srv", b!"b"]),
    (⟨storeDownload b!"//b", true, 0, .OK, .new, b!"new text"⟩, [b!"srv", b!"b"])] ?_ ?_ 2 1 (by omega) (by omega)).2 ?_
  · intro v hv
    simp only [List.mem_cons, List.not_mem_nil, or_false] at hv
    rcases hv with rfl | rfl
    · exact storeUpload_leads
    · exact storeDownload_leads
  · intro before g p after e
    rcases before with _ | ⟨v, _ | ⟨v', _ | ⟨v'', before⟩⟩⟩ <;> simp only [List.nil_append, List.cons_append, List.cons.injEq,
      Prod.mk.injEq, List.nil_eq, List.append_eq_nil_iff, reduceCtorEq, and_false, false_and] at e
    · obtain ⟨⟨rfl, rfl⟩, _⟩ := e
      exact ⟨rfl, rfl, rfl, rfl⟩
    · obtain ⟨rfl, ⟨rfl, rfl⟩, _⟩ := e
      exact ⟨rfl, rfl, rfl, sample_current⟩
  · intro v hv hh
    simp only [List.mem_cons, List.not_mem_nil, or_false] at hv
    rcases hv with rfl | rfl
    · simp at hh
    · decide

end HttpIo
