import Verif.Spec.Vanishing
import Verif.Props.Changing

/-! C130: the file server of `examples/server.rs` when files come and go while it lists a directory. -/

namespace HttpIo
open Spec

theorem listLoop_item (during : Nat → Fs) (p : List Bytes) (i : Nat) (n : Bytes) (hn : validUtf8 n = true)
    (node : Node) (hd : during i (p ++ [n]) = some node) : EntryItem (during i) p n (listItem (during i) p n) := by
  unfold listItem
  rw [if_pos hn]
  dsimp only
  rw [hd]
  cases node with
  | dir => rw [if_pos rfl, ← itemText_eq]; exact .dir hd
  | file content => rw [if_neg (by simp), List.append_nil, ← itemText_eq]; exact .file hd
  | link text => rw [if_neg (by simp), List.append_nil, ← itemText_eq]; exact .link hd

theorem entryItem_unique {fs : Fs} {p : List Bytes} {n a b : Bytes} (h : EntryItem fs p n a) (h' : EntryItem fs p n b) : a = b := by
  cases h with
  | dir h => cases h' with
    | dir _ => rfl
    | _ h' => rw [h] at h'; simp at h'
  | file h => cases h' with
    | dir h' => rw [h] at h'; simp at h'
    | _ => rfl
  | link h => cases h' with
    | dir h' => rw [h] at h'; simp at h'
    | _ => rfl

/-- The loop gives the items, if there are such. -/
theorem listLoop_ok {during : Nat → Fs} {p names items : List Bytes} {i : Nat} (h : Looked during p i names items) :
    listLoop during p i names = .ok items.flatten := by
  induction h with
  | none => rfl
  | @item i n it ns items ht he _ ih =>
    have hn := (validUtf8_iff n).2 ht
    have : ∃ node, during i (p ++ [n]) = some node := by cases he with | _ h => exact ⟨_, h⟩
    obtain ⟨node, hnode⟩ := this
    have := entryItem_unique he (listLoop_item during p i n hn node hnode)
    unfold listLoop
    rw [if_pos hn, hnode]
    dsimp only
    rw [ih]
    dsimp only
    rw [List.flatten_cons, this]
  | @skip i n ns items ht _ ih =>
    unfold listLoop
    rw [if_neg (fun hn => ht ((validUtf8_iff n).1 hn)), ih]

/-- The loop fails if an entry is gone. -/
theorem listLoop_gone {during : Nat → Fs} {p names : List Bytes} (i j : Nat) (n : Bytes) (hj : names[j]? = some n)
    (ht : IsText n) (hg : during (i + j) (p ++ [n]) = none) : listLoop during p i names = .error notFound := by
  induction names generalizing i j with
  | nil => simp at hj
  | cons m ms ih =>
    unfold listLoop
    cases j with
    | zero =>
      simp only [List.getElem?_cons_zero, Option.some.injEq] at hj
      subst hj
      rw [if_pos ((validUtf8_iff m).2 ht), show during i (p ++ [m]) = none from hg]
    | succ j =>
      have hrec := ih (i + 1) j (by simpa using hj) (by rw [Nat.add_assoc, Nat.add_comm 1 j]; exact hg)
      rw [hrec]
      split
      · cases during i (p ++ [m]) <;> rfl
      · rfl

/-- There is no third case: unless an entry is gone there are items. -/
theorem C130_cases (during : Nat → Fs) (p names : List Bytes) :
    (∃ items, Looked during p 0 names items) ↔ ¬ Vanished during p names := by
  constructor
  · rintro ⟨items, h⟩ ⟨i, n, h1, h2, h3⟩
    have h4 := listLoop_ok h
    rw [listLoop_gone 0 i n h1 h2 (by simpa using h3)] at h4
    simp at h4
  · intro h
    have key : ∀ (ns : List Bytes) (i : Nat), (∀ j n, ns[j]? = some n → IsText n → during (i + j) (p ++ [n]) ≠ none) →
        ∃ items, Looked during p i ns items := by
      intro ns
      induction ns with
      | nil => exact fun i _ => ⟨[], .none⟩
      | cons n ns ih =>
        intro i hk
        obtain ⟨items, hi⟩ := ih (i + 1) (fun j m hm ht => by
          have := hk (j + 1) m (by simpa using hm) ht
          rwa [show i + (j + 1) = i + 1 + j by omega] at this)
        by_cases ht : IsText n
        · cases hd : during i (p ++ [n]) with
          | none => exact absurd hd (hk 0 n rfl ht)
          | some node => exact ⟨_, .item ht (listLoop_item during p i n ((validUtf8_iff n).2 ht) node hd) hi⟩
        · exact ⟨items, .skip ht hi⟩
    exact key names 0 (fun j n hj ht hd => h ⟨j, n, hj, ht, by simpa using hd⟩)

section
variable [CaseMap] {c : Cfg} {σ : Type} [LawfulReader σ] [ZeroReader σ] [LawfulWriter σ]

omit [CaseMap] [LawfulReader σ] [ZeroReader σ] [LawfulWriter σ] in
theorem resolve_leads {fs : Fs} {root target : Bytes} {R cs p : List Bytes} (hR : RootAt fs root R) (ht : TargetText target cs)
    (h0 : (0 : UInt8) ∉ target) (hl : Leads fs R cs p) : fs.resolve (joinPath root (trimSlashes target)) = .ok p := by
  have hres := resolve_join hR ht
  rwa [if_neg h0, walk_iff.2 hl] at hres

theorem listingHandlerDuring_onlyReads (readDir : Fs → List Bytes → List Bytes) (during : Nat → Fs) (root : Bytes)
    (errText : Err → Bytes) : OnlyReads (listingHandlerDuring c σ readDir during root errText) :=
  ⟨(fileHandler_onlyReads root errText).1, fun _ _ _ => ⟨[], rfl⟩⟩

/-- Full statement: a GET of a directory is answered with a listing, whatever other processes do to its entries meanwhile. What
holds: it is if every entry is still there when it is looked at. An entry that has become something else is shown as what
it is by then, and one that has come since is not shown. -/
theorem C130_listed_partial {P : σ → Prop} (hra : ReadsApart σ) (hrel : Reliable c P) (hkept : ∀ s n, P s → P (read s n).2)
    {fs : Fs} {root target : Bytes} {R cs p : List Bytes} (hR : RootAt fs root R) (ht : TargetText target cs)
    (h0 : (0 : UInt8) ∉ target) (hl : Leads fs R cs p) (hp : fs p = some .dir) (readDir : Fs → List Bytes → List Bytes)
    (during : Nat → Fs) (items : List Bytes) (hi : Looked during p 0 (readDir fs p) items) (errText : Err → Bytes)
    (s : σ) (hs : P s) (r : HttpRequest c (BufReader c σ)) (s1 : BufReader c σ)
    (hd : HttpRequest.deserialize c (BufReader.new c s) = (.ok r, s1)) (hm : r.method = .Get) (hu : r.uri = target) :
    ((listingHandlerDuring c σ readDir during root errText).serveOne errText (.ok s) fs).1 = .ok () ∧
    ∃ d, ((listingHandlerDuring c σ readDir during root errText).serveOne errText (.ok s) fs).2.1 = some d ∧
      sent d = sent s ++ responseHead (utf8 "200 OK") [] ++ pageText target items.flatten := by
  have hres := resolve_leads hR ht h0 hl
  have hget : (listingHandlerDuring c σ readDir during root errText).get target fs =
      (.ok (HttpResponse.new c .OK (.A (Cursor.new (listPage target items.flatten)))), during (readDir fs p).length) := by
    show ListingHandler.getDuring c readDir during root target fs = _
    unfold ListingHandler.getDuring
    rw [hres]
    dsimp only
    rw [if_pos hp, listLoop_ok hi]
  obtain ⟨g1, d, g2, g3⟩ := getSends_of hra hrel hkept (listingHandlerDuring c σ readDir during root errText)
    (listingHandlerDuring_onlyReads readDir during root errText) errText fs _ target _ (.inl hget) rfl _ (cursor_trace _ _) s hs r s1 hd hm hu
  refine ⟨g1, d, g2, ?_⟩
  rw [g3, ← pageText_eq]
  show _ ++ responseHead HttpStatus.OK.display [] ++ _ = _
  rw [show HttpStatus.OK.display = utf8 "200 OK" by decide +kernel]

/-- False: if one entry is gone when it is looked at, the whole answer is an error, although the directory is there and the
other entries are. -/
theorem C130_vanished_false {P : σ → Prop} (hra : ReadsApart σ) (hrel : Reliable c P) (hkept : ∀ s n, P s → P (read s n).2)
    {fs : Fs} {root target : Bytes} {R cs p : List Bytes} (hR : RootAt fs root R) (ht : TargetText target cs)
    (h0 : (0 : UInt8) ∉ target) (hl : Leads fs R cs p) (hp : fs p = some .dir) (readDir : Fs → List Bytes → List Bytes)
    (during : Nat → Fs) (hv : Vanished during p (readDir fs p)) (errText : Err → Bytes)
    (s : σ) (hs : P s) (r : HttpRequest c (BufReader c σ)) (s1 : BufReader c σ)
    (hd : HttpRequest.deserialize c (BufReader.new c s) = (.ok r, s1)) (hm : r.method = .Get) (hu : r.uri = target) :
    ((listingHandlerDuring c σ readDir during root errText).serveOne errText (.ok s) fs).1 = .ok () ∧
    ∃ d, ((listingHandlerDuring c σ readDir during root errText).serveOne errText (.ok s) fs).2.1 = some d ∧
      sent d = sent s ++ responseHead (utf8 "500 Internal Server Error") [] ++ errText notFound := by
  have hres := resolve_leads hR ht h0 hl
  obtain ⟨i, n, h1, h2, h3⟩ := hv
  have hget : (listingHandlerDuring c σ readDir during root errText).get target fs =
      (.err notFound, during (readDir fs p).length) := by
    show ListingHandler.getDuring c readDir during root target fs = _
    unfold ListingHandler.getDuring
    rw [hres]
    dsimp only
    rw [if_pos hp, listLoop_gone 0 i n h1 h2 (by simpa using h3)]
  obtain ⟨g1, d, g2, g3⟩ := getSends_of hra hrel hkept (listingHandlerDuring c σ readDir during root errText)
    (listingHandlerDuring_onlyReads readDir during root errText) errText fs _ target
    (ServerResponse.fromString c .InternalServerError (errText notFound)) (.inr ⟨_, hget, rfl⟩) rfl _ (cursor_trace _ _) s hs r s1 hd hm hu
  refine ⟨g1, d, g2, ?_⟩
  rw [g3]
  show _ ++ responseHead HttpStatus.InternalServerError.display [] ++ _ = _
  rw [show HttpStatus.InternalServerError.display = utf8 "500 Internal Server Error" by decide +kernel]

/-- With nobody changing anything this is the server of C81. -/
theorem C130_still {fs : Fs} {root target : Bytes} {R cs p : List Bytes} (hR : RootAt fs root R) (ht : TargetText target cs)
    (h0 : (0 : UInt8) ∉ target) (hl : Leads fs R cs p) (readDir : Fs → List Bytes → List Bytes)
    (hls : Lists (readDir fs p) fs p) (errText : Err → Bytes) :
    (listingHandlerDuring c σ readDir (fun _ => fs) root errText).get target fs =
      (listingHandler c σ readDir root errText).get target fs := by
  show ListingHandler.getDuring c readDir (fun _ => fs) root target fs = ListingHandler.get c readDir root target fs
  have hres := resolve_leads hR ht h0 hl
  unfold ListingHandler.getDuring
  rw [hres]
  dsimp only
  split
  · rename_i hp
    have key : ∀ (ns : List Bytes) (i : Nat), (∀ n ∈ ns, fs (p ++ [n]) ≠ none) →
        listLoop (fun _ => fs) p i ns = .ok (ns.map (listItem fs p)).flatten := by
      intro ns
      induction ns with
      | nil => exact fun _ _ => rfl
      | cons n ns ih =>
        intro i hk
        unfold listLoop
        rw [ih (i + 1) (fun m hm => hk m (List.mem_cons_of_mem _ hm))]
        split
        · cases hn : fs (p ++ [n]) with
          | none => exact absurd hn (hk n (by simp))
          | some node => rfl
        · rename_i hn
          rw [List.map_cons, List.flatten_cons]
          unfold listItem
          rw [if_neg hn]
          rfl
    rw [key _ 0 (fun n hn => ((hls.2 n).1 hn).1)]
    dsimp only
    unfold ListingHandler.get ListingHandler.getAmid Fs.metadata
    dsimp only
    rw [hres]
    dsimp only
    rw [hp]
  · rfl

end

/-! ### Concrete cases -/

/-- The file system when `/srv/d/a` has been removed. -/
def removed (fs : Fs) : Fs := fun q => if q = [b!"srv", b!"d", b!"a"] then none else fs q

/-- The hypotheses of the theorems: `/srv/d` is a directory with the entries `a` and `b`. If both stay there are items; if
`a` is removed before it is looked at it is gone; if it is removed after that there are items. -/
example : RootAt listedFs b!"/srv" [b!"srv"] ∧ TargetText b!"/d/" [b!"d", []] ∧
    Leads listedFs [b!"srv"] [b!"d", []] [b!"srv", b!"d"] ∧ listedFs [b!"srv", b!"d"] = some .dir ∧
    Looked (fun i => if i = 0 then listedFs else removed listedFs) [b!"srv", b!"d"] 0 (someNames listedFs [b!"srv", b!"d"])
      [itemText b!"a" b!"a", itemText b!"b" b!"b"] ∧
    Vanished (fun _ => removed listedFs) [b!"srv", b!"d"] (someNames listedFs [b!"srv", b!"d"]) ∧
    Lists (someNames listedFs [b!"srv", b!"d"]) listedFs [b!"srv", b!"d"] := by
  have hn : someNames listedFs [b!"srv", b!"d"] = [b!"a", b!"b"] := by decide +kernel
  refine ⟨listedFs_root, ⟨1, b!"d/", rfl, by decide, splitPath_iff.2 (by decide)⟩, walk_iff.1 (by rfl), rfl, ?_, ?_, listedFs_lists _⟩
  · rw [hn]
    exact .item (isText_ascii (by decide)) (.file (content := b!"new") (by decide +kernel))
      (.item (isText_ascii (by decide)) (.file (content := b!"other") (by decide +kernel)) .none)
  · rw [hn]
    exact ⟨0, b!"a", rfl, isText_ascii (by decide), by decide +kernel⟩

/-- What the server sends when `/srv/d/a` is removed before it is looked at. -/
theorem C130_removed_false (c : Cfg) : let _ := asciiCase
    ((listingHandlerDuring c (Duplex Wire Sink) someNames (fun _ => removed listedFs) b!"/srv" fun _ => utf8 "gone").serveOne
      (fun _ => []) (.ok (requestConn b!"GET /d/ HTTP/1.1\r\n\r\n")) listedFs).2.1.map sent =
    some (utf8 "HTTP/1.1 500 Internal Server Error\r\n\r\ngone") := by
  rcases c with ⟨_ | _⟩ <;> decide +kernel

end HttpIo
