import Verif.Props.Net
/-!
Property C36 (Tflp reports) and C49 (transfer of the output files).
-/
namespace Verif.Net

theorem decodeValues_spec (m : Msg) (t : Nat) (vs : List Nat) : ∀ (pre post : List Nat), Holds m t (pre ++ vs ++ post) →
    decodeValues m vs.length pre.length = .ok vs := by
  induction vs with
  | nil => intro pre post _; rfl
  | cons v vs ih =>
    intro pre post h
    have hx : extract m pre.length = .ok v := extract_spec h _ _ (by simp)
    have hr := ih (pre ++ [v]) post (by simpa using h)
    rw [show (pre ++ [v]).length = pre.length + 1 by simp] at hr
    rw [List.length_cons, decodeValues, hx]
    simp only
    rw [hr]

/-- Specification: the report of an inspection point is its file name, header and values. -/
def Point.report (p : Point) : Report := ⟨p.name, p.header, p.values⟩

/-- Names and headers are made of bytes. -/
def Point.Bytes (p : Point) : Prop := (∀ b ∈ p.name, IsByte b) ∧ (∀ b ∈ p.header, IsByte b)

theorem decodeReports_spec (m : Msg) (t q : Nat) (hq : 1 ≤ q ∧ q ≤ 4) (ps : List Point) : ∀ (pre : List Nat),
    (∀ p ∈ ps, p.Bytes) → (∀ post, Holds m t (pre ++ ps.flatMap (fun p => fillTflp p q) ++ post) →
    decodeReports m ps.length pre.length = .ok (ps.map Point.report)) := by
  induction ps with
  | nil => intro pre _ post _; rfl
  | cons p ps ih =>
    intro pre hb post h
    obtain ⟨hb1, hb2⟩ := hb p (by simp)
    have hfill : fillTflp p q =
        [p.name.length, p.header.length, p.values.length] ++ packBytes p.name ++ packBytes p.header ++ p.values := by
      unfold fillTflp; rw [if_pos hq]
    rw [List.flatMap_cons, hfill] at h
    generalize hrest : ps.flatMap (fun p => fillTflp p q) = rest at h
    have x0 : extract m pre.length = .ok p.name.length := extract_spec h _ _ (by simp)
    have x1 : extract m (pre.length + 1) = .ok p.header.length := extract_spec h _ _ (by
      simp)
    have x2 : extract m (pre.length + 2) = .ok p.values.length := extract_spec h _ _ (by
      simp)
    have hn := extractChunks_spec m t p.name (pre ++ [p.name.length, p.header.length, p.values.length])
      (packBytes p.header ++ p.values ++ rest ++ post) hb1 (by simpa using h)
    rw [show (pre ++ [p.name.length, p.header.length, p.values.length]).length = pre.length + 3 by simp] at hn
    have hh := extractChunks_spec m t p.header (pre ++ [p.name.length, p.header.length, p.values.length] ++ packBytes p.name)
      (p.values ++ rest ++ post) hb2 (by simpa using h)
    rw [show (pre ++ [p.name.length, p.header.length, p.values.length] ++ packBytes p.name).length =
      pre.length + 3 + (packBytes p.name).length by simp; omega] at hh
    have hv := decodeValues_spec m t p.values
      (pre ++ [p.name.length, p.header.length, p.values.length] ++ packBytes p.name ++ packBytes p.header)
      (rest ++ post) (by simpa using h)
    rw [show (pre ++ [p.name.length, p.header.length, p.values.length] ++ packBytes p.name ++ packBytes p.header).length =
      pre.length + 3 + (packBytes p.name).length + (packBytes p.header).length by simp; omega] at hv
    have hr := ih (pre ++ [p.name.length, p.header.length, p.values.length] ++ packBytes p.name ++ packBytes p.header ++
      p.values) (fun x hx => hb x (by simp [hx])) post (by rw [hrest]; simpa using h)
    rw [show (pre ++ [p.name.length, p.header.length, p.values.length] ++ packBytes p.name ++ packBytes p.header ++
      p.values).length =
      pre.length + 3 + (packBytes p.name).length + (packBytes p.header).length + p.values.length by simp; omega] at hr
    rw [List.length_cons, decodeReports, x0, x1, x2]
    simp only [extractBytes]
    rw [hn]
    simp only
    rw [hh]
    simp only
    rw [hv]
    simp only
    rw [hr]
    rfl

/-- **C36** For any inspection points of an instant (with byte names and headers, total below 2^31 words) and any of the
four Tflp quantities, the client decodes the server's reply into the time and exactly the reports of the matching points,
in declaration order. -/
theorem C36_client_decodes_server_reports (points : List Point) (time q : Nat) (hq : 1 ≤ q ∧ q ≤ 4)
    (hb : ∀ p ∈ points, p.Bytes) (hsz : (tflpReplyWords points time q).length + 2 < 2147483648) :
    ∃ m, buildMessage 2 (tflpReplyWords points time q) = some m ∧
      clientDecode m = .ok (time,
        (points.filter (fun p => p.otype == TFLP && p.quantity == q)).map Point.report) := by
  obtain ⟨m, h1, h2⟩ := buildMessage_holds 2 _ hsz
  refine ⟨m, h1, ?_⟩
  have hfilter : points.filter (fun p => isInspectionPoint p TFLP q) =
      points.filter (fun p => p.otype == TFLP && p.quantity == q) := by
    apply List.filter_congr
    intro p _
    unfold isInspectionPoint
    by_cases ho : p.otype = TFLP
    · simp [ho, TFLP, TCELL, TMAP, PMAP]
    · simp [ho]
  unfold tflpReplyWords at h2
  simp only at h2
  rw [hfilter] at h2
  have hmem : ∀ p ∈ points.filter (fun p => p.otype == TFLP && p.quantity == q), p.Bytes :=
    fun p hp => hb p (List.mem_of_mem_filter hp)
  generalize points.filter (fun p => p.otype == TFLP && p.quantity == q) = ps at h2 hmem
  have x0 : extract m 0 = .ok time := extract_spec h2 _ _ (by simp)
  have x1 : extract m 1 = .ok ps.length := extract_spec h2 _ _ (by simp)
  unfold clientDecode
  rw [x0, x1]
  simp only
  by_cases hn : ps.length = 0
  · rw [if_pos hn, List.eq_nil_of_length_eq_zero hn]; rfl
  · rw [if_neg hn]
    rw [if_pos (by omega)] at h2
    have := decodeReports_spec m 2 q hq ps [time, ps.length] hmem [] (by simpa using h2)
    simp only [List.length_cons, List.length_nil] at this
    rw [this]

/-- Three points, two of which match; names of different lengths modulo 4, one without floorplan values. -/
example : ∃ m, buildMessage 2 (tflpReplyWords
      [⟨TFLP, 2, [97, 98, 99, 100, 101], [37, 32], [11, 12]⟩, ⟨TFLP, 1, [120], [], [5]⟩, ⟨TFLP, 2, [98], [1, 2, 3], []⟩] 42 2)
        = some m ∧
    clientDecode m = .ok (42, [⟨[97, 98, 99, 100, 101], [37, 32], [11, 12]⟩, ⟨[98], [1, 2, 3], []⟩]) := by
  obtain ⟨m, h1, h2⟩ := C36_client_decodes_server_reports
    [⟨TFLP, 2, [97, 98, 99, 100, 101], [37, 32], [11, 12]⟩, ⟨TFLP, 1, [120], [], [5]⟩, ⟨TFLP, 2, [98], [1, 2, 3], []⟩] 42 2
    (by simp) (by simp [Point.Bytes, IsByte]) (by decide +kernel)
  exact ⟨m, h1, h2⟩

/-- **C36, end to end over the socket**: same, after the reply travelled through any fragmentation. The words must be words
(floats are 4 bytes by construction in the code). -/
theorem C36_over_the_socket (points : List Point) (time q : Nat) (hq : 1 ≤ q ∧ q ≤ 4) (hb : ∀ p ∈ points, p.Bytes)
    (hsz : (tflpReplyWords points time q).length + 2 < 1073741824) (hw : ∀ w ∈ tflpReplyWords points time q, IsWord w)
    (wsched : List WriteEv) (sent tail : List Nat) (rsched : List ReadEv) (hs : ∀ e ∈ rsched, e ≠ .err)
    (hen : 4 * ((tflpReplyWords points time q).length + 2) ≤ dataCount rsched) (m : Msg)
    (hm : buildMessage 2 (tflpReplyWords points time q) = some m) (hsend : send wsched m = some (.ok, sent)) :
    ∃ r, receive rsched (sent ++ tail) init = some r ∧ r.status = .ok ∧
      clientDecode r.msg = .ok (time, (points.filter (fun p => p.otype == TFLP && p.quantity == q)).map Point.report) := by
  obtain ⟨m', h1, h2⟩ := buildMessage_holds 2 (tflpReplyWords points time q) (by omega)
  rw [hm] at h1; cases h1
  obtain ⟨r, g1, g2, g3, _⟩ := C06_end_to_end m 2 _ h2 (by simp [IsWord]) hw hsz wsched sent tail hsend rsched hs hen
  refine ⟨r, g1, g2, ?_⟩
  have hfilter : points.filter (fun p => isInspectionPoint p TFLP q) =
      points.filter (fun p => p.otype == TFLP && p.quantity == q) := by
    apply List.filter_congr
    intro p _
    unfold isInspectionPoint
    by_cases ho : p.otype = TFLP
    · simp [ho, TFLP, TCELL, TMAP, PMAP]
    · simp [ho]
  unfold tflpReplyWords at g3
  simp only at g3
  rw [hfilter] at g3
  have hmem : ∀ p ∈ points.filter (fun p => p.otype == TFLP && p.quantity == q), p.Bytes :=
    fun p hp => hb p (List.mem_of_mem_filter hp)
  generalize points.filter (fun p => p.otype == TFLP && p.quantity == q) = ps at g3 hmem
  have x0 : extract r.msg 0 = .ok time := extract_spec g3 _ _ (by simp)
  have x1 : extract r.msg 1 = .ok ps.length := extract_spec g3 _ _ (by simp)
  unfold clientDecode
  rw [x0, x1]
  simp only
  by_cases hn : ps.length = 0
  · rw [if_pos hn, List.eq_nil_of_length_eq_zero hn]; rfl
  · rw [if_neg hn]
    rw [if_pos (by omega)] at g3
    have := decodeReports_spec r.msg 2 q hq ps [time, ps.length] hmem [] (by simpa using g3)
    simp only [List.length_cons, List.length_nil] at this
    rw [this]

/-! ### C49: output files -/

/-- Specification: walk the names in order, keep each non-empty readable name once (first occurrence). -/
def filesToSend (files : List Nat → Option (List Nat)) : List (List Nat) → List (List Nat) → List (List Nat)
  | sent, []      => sent
  | sent, n :: ns =>
    if n ≠ [] ∧ n ∉ sent ∧ (files n).isSome then filesToSend files (sent ++ [n]) ns else filesToSend files sent ns

/-- Specification: the record of one file. -/
def fileRecord (files : List Nat → Option (List Nat)) (n : List Nat) : List Nat :=
  [n.length, ((files n).getD []).length] ++ packBytes n ++ packBytes ((files n).getD [])

theorem appendFiles_spec (files : List Nat → Option (List Nat)) (names : List (List Nat)) :
    ∀ (st st' : List (List Nat) × List Nat), st.2 = st.1.flatMap (fileRecord files) →
    appendFiles files st names = some st' →
    st'.1 = filesToSend files st.1 names ∧ st'.2 = st'.1.flatMap (fileRecord files) := by
  induction names with
  | nil => intro st st' h1 h2; simp only [appendFiles, Option.some.injEq] at h2; subst h2; exact ⟨rfl, h1⟩
  | cons n ns ih =>
    intro st st' h1 h2
    simp only [appendFiles] at h2
    cases ha : appendFile files st n with
    | none => rw [ha] at h2; cases h2
    | some s1 =>
      rw [ha] at h2
      simp only at h2
      unfold appendFile at ha
      by_cases c1 : n = []
      · rw [if_pos c1] at ha; cases ha
        have := ih _ st' h1 h2
        simpa [filesToSend, c1] using this
      · rw [if_neg c1] at ha
        by_cases c2 : n ∈ st.1
        · rw [if_pos c2] at ha; cases ha
          have := ih _ st' h1 h2
          simpa [filesToSend, c2] using this
        · rw [if_neg c2] at ha
          by_cases c3 : st.1.length = 1024
          · rw [if_pos c3] at ha; cases ha
          · rw [if_neg c3] at ha
            cases hf : files n with
            | none =>
              rw [hf] at ha; cases ha
              have := ih _ st' h1 h2
              simpa [filesToSend, hf] using this
            | some c =>
              rw [hf] at ha
              simp only [Option.some.injEq] at ha
              subst ha
              have := ih _ st' (by simp [h1, fileRecord, hf]) h2
              simpa [filesToSend, hf, c1, c2] using this

theorem filesToSend_append (files : List Nat → Option (List Nat)) (a b : List (List Nat)) : ∀ sent,
    filesToSend files sent (a ++ b) = filesToSend files (filesToSend files sent a) b := by
  induction a with
  | nil => intro sent; rfl
  | cons n ns ih =>
    intro sent
    simp only [List.cons_append, filesToSend]
    split <;> exact ih _

theorem filesToSend_spec (files : List Nat → Option (List Nat)) (names : List (List Nat)) : ∀ sent : List (List Nat),
    sent.Nodup → (filesToSend files sent names).Nodup ∧
    (∀ n, n ∈ filesToSend files sent names ↔ n ∈ sent ∨ (n ∈ names ∧ n ≠ [] ∧ (files n).isSome)) := by
  induction names with
  | nil => intro sent h; exact ⟨h, by simp [filesToSend]⟩
  | cons x xs ih =>
    intro sent h
    simp only [filesToSend]
    split
    · rename_i hc
      obtain ⟨a, b⟩ := ih (sent ++ [x]) (by
        rw [List.nodup_append]; exact ⟨h, by simp, by
          intro a ha b hb; simp at hb; subst hb; intro he; exact hc.2.1 (he ▸ ha)⟩)
      refine ⟨a, fun n => ?_⟩
      rw [b n]
      simp only [List.mem_append, List.mem_cons, List.not_mem_nil, or_false]
      constructor
      · rintro ((h | h) | h)
        · exact Or.inl h
        · subst h; exact Or.inr ⟨Or.inl rfl, hc.1, hc.2.2⟩
        · exact Or.inr ⟨Or.inr h.1, h.2⟩
      · rintro (h | ⟨h | h, h2⟩)
        · exact Or.inl (Or.inl h)
        · exact Or.inl (Or.inr h)
        · exact Or.inr ⟨h, h2⟩
    · rename_i hc
      obtain ⟨a, b⟩ := ih sent h
      refine ⟨a, fun n => ?_⟩
      rw [b n]
      simp only [List.mem_cons]
      constructor
      · rintro (h | h)
        · exact Or.inl h
        · exact Or.inr ⟨Or.inr h.1, h.2⟩
      · rintro (h | ⟨h | h, h2⟩)
        · exact Or.inl h
        · subst h
          by_cases hs : n ∈ sent
          · exact Or.inl hs
          · exact absurd ⟨h2.1, hs, h2.2⟩ hc
        · exact Or.inr ⟨h, h2⟩

/-- **C49** The reply to an output-files request announces exactly the number of records that follow; the records are
those of the existing files named by some inspection point, each once; final points come first, then slot, then step
points. -/
theorem C49_output_files_reply (files : List Nat → Option (List Nat)) (final slot step : List (List Nat)) (ws : List Nat)
    (h : outputFilesWords files final slot step = some ws) :
    ∃ sent : List (List Nat), ws = sent.length :: sent.flatMap (fileRecord files) ∧
      sent = filesToSend files [] (final ++ slot ++ step) ∧ sent.Nodup ∧
      (∀ n, n ∈ sent ↔ n ∈ final ++ slot ++ step ∧ n ≠ [] ∧ (files n).isSome) := by
  unfold outputFilesWords at h
  cases h1 : appendFiles files ([], []) final with
  | none => simp [h1] at h
  | some s1 =>
    cases h2 : appendFiles files s1 slot with
    | none => simp [h1, h2] at h
    | some s2 =>
      cases h3 : appendFiles files s2 step with
      | none => simp [h1, h2, h3] at h
      | some s3 =>
        simp only [h1, h2, h3, Option.some.injEq] at h
        obtain ⟨a1, a2⟩ := appendFiles_spec files final ([], []) s1 rfl h1
        obtain ⟨b1, b2⟩ := appendFiles_spec files slot s1 s2 a2 h2
        obtain ⟨c1, c2⟩ := appendFiles_spec files step s2 s3 b2 h3
        have e : s3.1 = filesToSend files [] (final ++ slot ++ step) := by
          rw [filesToSend_append, filesToSend_append, c1, b1, a1]
        obtain ⟨d1, d2⟩ := filesToSend_spec files (final ++ slot ++ step) [] (by simp)
        refine ⟨s3.1, by rw [← h, c2], e, by rw [e]; exact d1, fun n => by rw [e, d2 n]; simp⟩

/-- **C49** The request never fails when at most 1024 inspection points are declared. -/
theorem C49_succeeds_up_to_1024 (files : List Nat → Option (List Nat)) (final slot step : List (List Nat))
    (hn : (final ++ slot ++ step).length ≤ 1024) : (outputFilesWords files final slot step).isSome := by
  have aux : ∀ (names : List (List Nat)) (st : List (List Nat) × List Nat), st.1.length + names.length ≤ 1024 →
      ∃ st', appendFiles files st names = some st' ∧ st'.1.length ≤ st.1.length + names.length := by
    intro names
    induction names with
    | nil => intro st _; exact ⟨st, rfl, by simp⟩
    | cons n ns ih =>
      intro st hst
      simp only [List.length_cons] at hst
      have hone : ∃ s1, appendFile files st n = some s1 ∧ s1.1.length ≤ st.1.length + 1 := by
        unfold appendFile
        split
        · exact ⟨st, rfl, by omega⟩
        · split
          · exact ⟨st, rfl, by omega⟩
          · rw [if_neg (by omega)]
            split
            · exact ⟨st, rfl, by omega⟩
            · exact ⟨_, rfl, by simp⟩
      obtain ⟨s1, e1, e2⟩ := hone
      obtain ⟨s2, f1, f2⟩ := ih s1 (by omega)
      exact ⟨s2, by simp [appendFiles, e1, f1], by simp only [List.length_cons]; omega⟩
  simp only [List.length_append] at hn
  obtain ⟨s1, a1, a2⟩ := aux final ([], []) (by simp; omega)
  obtain ⟨s2, b1, b2⟩ := aux slot s1 (by simp at a2; omega)
  obtain ⟨s3, c1, c2⟩ := aux step s2 (by simp at a2; omega)
  simp [outputFilesWords, a1, b1, c1]

example : outputFilesWords (fun n => if n = [65] then some [1, 2, 3, 4, 5] else if n = [66, 67] then some [] else none)
    [[65], [68]] [[66, 67], [65]] [[]] =
    some [2, 1, 5, 65, 67305985, 5, 2, 0, 17218] := by decide +kernel

end Verif.Net
