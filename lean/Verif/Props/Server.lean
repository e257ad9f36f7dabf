import Verif.Model.Server
import Verif.Props.Output
import Verif.Props.Reply
import Verif.Props.Slots

/-! # C34: the server answers every request -/

set_option linter.unusedSectionVars false
set_option linter.unusedSimpArgs false
set_option linter.unusedVariables false

namespace Verif.Srv
open Verif.Net (Msg ReadEv typeWord extract buildMessage receive outputFilesWords packBytes wire Holds IsWord dataCount filesToSend fileRecord)
open Verif.Dim Verif.TG Verif.SM Verif.Flp Verif.Stk Verif.Emu Verif.Out

variable {K : Type} [Field K] [LinearOrder K] [IsStrictOrderedRing K] {π : Type}

/-! ### Specification (include/types.h:564-730) -/

/-- What a client can ask. The parameters are the words of the message; `insert` carries one `float` word per value. -/
inductive Request where
  | exit | reset | output (instant type quantity : Nat) | print (instant : Nat) | total | insert (powers : List Nat) | slot | step | files
  | unknown (type : Nat) (words : List Nat)

/-- The type word of a request. -/
def Request.type : Request → Nat
  | .exit => 0 | .reset => 1 | .output .. => 2 | .print _ => 3 | .total => 4 | .insert _ => 5 | .slot => 6 | .step => 7 | .files => 8
  | .unknown t _ => t

/-- The content of a request. -/
def Request.words : Request → List Nat
  | .output i t q => [i, t, q]
  | .print i => [i]
  | .insert vs => vs.length :: vs
  | .unknown _ ws => ws
  | _ => []

/-- The words fit 32 bits, the message is shorter than 2^30 words, and an unknown type is none of the known ones. -/
def Request.Valid (r : Request) : Prop :=
  (∀ w ∈ r.words, IsWord w) ∧ r.words.length + 2 < 1073741824 ∧ IsWord r.type ∧ match r with | .unknown t _ => 9 ≤ t | _ => True

/-- The bytes of a request. -/
def Request.wire (r : Request) : List Nat := Net.wire r.type r.words

/-- The points that answer an output request, in the order of their declaration: those with the instant and the type of the request, and
its quantity if the type has one. Three-dimensional maps are never sent. -/
def asked (ps : List (Point K)) (instant type quantity : Nat) : List (Point K) :=
  (ofInstant (instantOf instant) ps).filter fun p =>
    decide (kindCode p.kind = type ∧ type ≠ 0 ∧ type ≠ 7 ∧ ((type = 2 ∨ type = 3 ∨ type = 6) → quantityCode p.quantity = quantity))

/-- The words of a point: what would be written to its file (C32), as `float`s. A floorplan point is preceded by its file name and header, a
map by its sizes. -/
def answerOf (e : Env K π) (s : Sim K π) (p : Point K) : List Nat :=
  match recordOf e.cfg s (simulatedTime e.cfg.an s) p with
  | some (.line _ vs) =>
    (match p.kind with
      | .tflp .. => [(bytesOf p.file).length, (e.header p).length, vs.length] ++ packBytes (bytesOf p.file) ++ packBytes (e.header p)
      | _ => []) ++ vs.map e.toFloat
  | some (.map rows) => e.cfg.d.nRows :: e.cfg.d.nCols :: rows.flatten.map e.toFloat
  | none => []

/-- What becomes of the server after a simulation request: it goes on after a success, ends at the end of the simulation, and gives up after
any other result. -/
def goesOn (r : SimResult) (s : State K π) : Next K π :=
  match r with
  | .slotDone | .stepDone => .run s
  | .endOfSimulation => .quit s
  | _ => .error s

/-- The content of the reply (if there is one) to a request in state `s`, and what happens next. -/
def Answers (e : Env K π) (ps : List (Point K)) (s : State K π) : Request → Option (List Nat) → Next K π → Prop
  | .exit, rep, n => rep = none ∧ n = .quit s
  | .reset, rep, n => rep = none ∧ n = .run { s with sim := Emu.reset e.cfg s.sim }
  | .output i t q, rep, n =>
    rep = some (e.toFloat ((s.sim.time : K) * e.cfg.an.stepTime) :: (asked ps i t q).length :: (asked ps i t q).flatMap (answerOf e s.sim)) ∧
      n = .run s
  | .print i, rep, n =>
    rep = none ∧ n = .run { s with headers := true, log := s.log ++ entries e.cfg s.sim ((s.sim.time : K) * e.cfg.an.stepTime) (ofInstant (instantOf i) ps) }
  | .total, rep, n => rep = some [(elements s.sim).length] ∧ n = .run s
  | .insert ws, rep, n =>
    if (elements s.sim).length ≤ ws.length then
      rep = some [0] ∧ ∃ sim, n = .run { s with sim := sim } ∧ sim = (insertPowerValues s.sim (ws.map e.ofFloat)).1 ∧
        traces sim = List.zipWith (fun t w => t ++ [e.ofFloat w]) (traces s.sim) ws
    else rep = none ∧ ∃ s', n = .error s'
  | .slot, rep, n => ∃ r sim, SlotRun e.cfg s.sim r sim ∧ rep = some [simCode r] ∧ r ≠ .stepDone ∧ n = goesOn r { s with sim := sim }
  | .step, rep, n => ∃ r sim, emulateStep e.cfg s.sim = (r, sim) ∧ rep = some [simCode r] ∧ n = goesOn r { s with sim := sim }
  | .files, rep, n =>
    ∃ names, names = (ofInstant .final ps ++ ofInstant .slot ps ++ ofInstant .step ps).map (fun p => bytesOf p.file) ∧
      (rep = some ((filesToSend (e.disk s.headers s.log) [] names).length ::
          (filesToSend (e.disk s.headers s.log) [] names).flatMap (fileRecord (e.disk s.headers s.log))) ∧ n = .run s ∨
        rep = none ∧ n = .error s ∧ 1024 < names.length)
  | .unknown _ _, rep, n => rep = none ∧ n = .run s

/-- The history of a server: it answers the requests one after the other, in order. It ends when a request ends it, or when the client
has disconnected after its last request; otherwise it waits for the client. -/
inductive Answered (e : Env K π) (ps : List (Point K)) : State K π → List Request → List (Nat × List Nat) → Final K π → Prop
  | waits {s reqs} : Answered e ps s reqs [] (.waiting s)
  | disconnected {s} : Answered e ps s [] [] (.quit s)
  | quits {s req reqs rep s'} : Answers e ps s req rep (.quit s') →
      Answered e ps s (req :: reqs) (rep.toList.map fun ws => (req.type, ws)) (.quit s')
  | fails {s req reqs rep s'} : Answers e ps s req rep (.error s') →
      Answered e ps s (req :: reqs) (rep.toList.map fun ws => (req.type, ws)) (.error s')
  | next {s req reqs rep s' reps f} : Answers e ps s req rep (.run s') → Answered e ps s' reqs reps f →
      Answered e ps s (req :: reqs) ((rep.toList.map fun ws => (req.type, ws)) ++ reps) f

/-- `s` is the state of a server that starts on the stack section `rs` with the inspection points `ps`: bin/3D-ICE-Server.c:280-336. -/
structure Launched (e : Env K π) (ps : List (Point K)) (rs : List (Raw K (List (FlpEl K)))) (s : State K π) : Prop where
  transient : e.cfg.an.type = .transient
  slotLength : 0 < e.cfg.an.slotLength
  built : ∃ (d0 : Dims K) (decl : Option (Channel K)) (p : Parsed K (List (FlpEl K))) (q : π), BuiltFrom d0 decl rs p s.sim.g ∧ e.cfg.d = p.dims ∧
    build e.cfg s.sim.g (fillFloorplans p.dims.nLayers p.elems) q = some s.sim ∧ e.elems = p.elems
  output : e.output = addPoints ps
  sound : ∀ p ∈ ps, Sound p
  writable : ∀ p ∈ ps, e.canOpen p.file = true
  headers : s.headers = false
  log : s.log = []

/-! ### Proofs: the content of the replies -/

theorem isPoint_eq {p : Point K} (hs : Sound p) (t q : Nat) :
    isPoint p t q = decide (kindCode p.kind = t ∧ t ≠ 0 ∧ t ≠ 7 ∧ ((t = 2 ∨ t = 3 ∨ t = 6) → quantityCode p.quantity = q)) := by
  unfold isPoint
  by_cases h : kindCode p.kind = t
  · subst h
    cases hk : p.kind <;> simp [kindCode]
    all_goals rfl
  · simp [h]

theorem listOf_addPoints (ps : List (Point K)) (i : Nat) :
    (listOf (addPoints ps) i = some (ofInstant (instantOf i) ps) ∧ instantOf i ≠ .none) ∨ (listOf (addPoints ps) i = none ∧ instantOf i = .none) := by
  rw [addPoints_eq]
  unfold listOf instantOf
  by_cases h1 : i = 1
  · subst h1; exact Or.inl ⟨rfl, by simp⟩
  · by_cases h3 : i = 3
    · subst h3; exact Or.inl ⟨rfl, by simp⟩
    · by_cases h2 : i = 2
      · subst h2; exact Or.inl ⟨rfl, by simp⟩
      · right; simp [h1, h2, h3]

theorem ofInstant_none {ps : List (Point K)} (hs : ∀ p ∈ ps, Sound p) : ofInstant .none ps = [] := by
  unfold ofInstant
  rw [List.filter_eq_nil_iff]
  intro p hp
  have := (hs p hp).1
  simpa using this

theorem count_foldl (f : Point K → Bool) (ps : List (Point K)) : ∀ n, n + ps.length < W →
    ps.foldl (fun n p => if f p = true then (n + 1) % W else n) n = n + (ps.filter f).length := by
  induction ps with
  | nil => intro n _; simp
  | cons p ps ih =>
    intro n hn
    simp only [List.length_cons] at hn
    rw [List.foldl_cons, List.filter_cons]
    by_cases h : f p = true
    · rw [if_pos h, if_pos h, Nat.mod_eq_of_lt (by omega), ih _ (by omega), List.length_cons]; omega
    · rw [if_neg h, if_neg h, ih _ (by omega)]

theorem asked_eq {ps : List (Point K)} (hs : ∀ p ∈ ps, Sound p) (i t q : Nat) :
    asked ps i t q = (ofInstant (instantOf i) ps).filter fun p => isPoint p t q := by
  unfold asked
  apply List.filter_congr
  intro p hp
  exact (isPoint_eq (hs p (List.mem_of_mem_filter hp)) t q).symm

theorem countPoints_eq {ps : List (Point K)} (hs : ∀ p ∈ ps, Sound p) (hW : ps.length < W) (i t q : Nat) :
    countPoints (addPoints ps) i t q = (asked ps i t q).length := by
  unfold countPoints
  rw [asked_eq hs]
  rcases listOf_addPoints ps i with ⟨h, -⟩ | ⟨h, h'⟩
  · rw [h]
    simp only
    have := List.length_filter_le (fun p => decide (p.instant = instantOf i)) ps
    rw [count_foldl _ _ _ (by unfold ofInstant; omega), Nat.zero_add]
  · rw [h, h', ofInstant_none hs]; rfl

theorem flatten_range {α : Type} (f : Nat → α) (m : Nat) : ∀ n, ((List.range n).map fun r => (List.range m).map fun c => f (r * m + c)).flatten =
    (List.range (n * m)).map f := by
  intro n
  induction n with
  | zero => simp
  | succ n ih =>
    rw [List.range_succ, List.map_append, List.flatten_append, ih, Nat.succ_mul, List.range_add, List.map_append]
    simp [Function.comp_def]

theorem mapWords_eq (e : Env K π) (l : Nat) (x : List K) :
    mapWords e l x = e.cfg.d.nRows :: e.cfg.d.nCols :: (mapRows e.cfg.d l x).flatten.map e.toFloat := by
  unfold mapWords mapRows
  rw [flatten_range (fun i => (fromLayer e.cfg.d l x).getD i 0), List.map_map]
  unfold fromLayer
  simp [Function.comp_def, List.getD_eq_getElem?_getD, List.getElem?_drop]

theorem quantityOf_code (q : Quantity) : quantityOf (quantityCode q) = q := by cases q <;> rfl

theorem flpStat_length (d : Dims K) (T : List K) {q : Quantity} (hq : q ≠ .none) (els : List (FlpEl K)) : (flpStat d T q els).length = els.length := by
  unfold flpStat
  induction els with
  | nil => rfl
  | cons a l ih =>
    rw [List.filterMap_cons]
    cases q <;> simp_all [elStat]

theorem pointWords_eq (e : Env K π) (s : Sim K π) {p : Point K} (hs : Sound p) {t q : Nat} (h : isPoint p t q = true) :
    pointWords e s q p = answerOf e s p := by
  rw [isPoint_eq hs, decide_eq_true_eq] at h
  obtain ⟨h1, -, -, h3⟩ := h
  obtain ⟨-, h2⟩ := hs
  unfold pointWords answerOf recordOf render
  cases hk : p.kind with
  | tcell l r c => simp
  | tflp l els =>
    rw [hk] at h1 h2
    simp only [kindCode] at h1
    have hq := h3 (Or.inl h1.symm)
    subst hq
    rw [quantityOf_code]
    simp only at h2 ⊢
    rw [flpStat_length _ _ h2]
  | tflpel l el =>
    rw [hk] at h1 h2
    simp only [kindCode] at h1
    have hq := h3 (Or.inr (Or.inl h1.symm))
    subst hq
    rw [quantityOf_code]
    simp only
    cases elStat e.cfg.d (fromLayer e.cfg.d l s.temps) p.quantity el <;> simp
  | tmap l => simp [mapWords_eq]
  | pmap l => simp [mapWords_eq]
  | tcoolant l ch =>
    rw [hk] at h1 h2
    simp only [kindCode] at h1
    have hq := h3 (Or.inr (Or.inr h1.symm))
    subst hq
    rw [quantityOf_code]
    simp only
    cases outletStat ch e.cfg.d (fromLayer e.cfg.d l s.temps) p.quantity <;> simp
  | t3d => simp
  | none => simp

theorem outputWords_eq (e : Env K π) (s : Sim K π) {ps : List (Point K)} (ho : e.output = addPoints ps) (hs : ∀ p ∈ ps, Sound p)
    (hW : ps.length < W) (i t q : Nat) :
    outputWords e s i t q = e.toFloat ((s.time : K) * e.cfg.an.stepTime) :: (asked ps i t q).length :: (asked ps i t q).flatMap (answerOf e s) := by
  unfold outputWords
  simp only
  rw [ho, countPoints_eq hs hW]
  congr 2
  rcases listOf_addPoints ps i with ⟨h, -⟩ | ⟨h, h'⟩
  · rw [h, asked_eq hs]
    simp only
    by_cases hz : ((ofInstant (instantOf i) ps).filter fun p => isPoint p t q).length > 0
    · rw [if_pos hz]
      apply List.flatMap_congr
      intro p hp
      obtain ⟨h1, h2⟩ := List.mem_filter.mp hp
      exact pointWords_eq e s (hs p (List.mem_of_mem_filter h1)) h2
    · rw [if_neg hz]
      have := List.length_eq_zero_iff.mp (Nat.eq_zero_of_not_pos hz)
      rw [this]; rfl
  · have : asked ps i t q = [] := by rw [asked_eq hs, h', ofInstant_none hs]; rfl
    rw [this]; rfl

theorem outputNow_eq (e : Env K π) (s : Sim K π) {ps : List (Point K)} (ho : e.output = addPoints ps) (hs : ∀ p ∈ ps, Sound p)
    (hc : ∀ p ∈ ps, e.canOpen p.file = true) (i : Instant) :
    outputNow e.canOpen e.output e.cfg s i = entries e.cfg s ((s.time : K) * e.cfg.an.stepTime) (ofInstant i ps) := by
  rw [ho]
  by_cases hi : i = .none
  · subst hi
    rw [ofInstant_none hs]; rfl
  · exact outputNow_sound s hs (fun p hp => Or.inr (hc p hp)) hi

theorem headersOk_true {e : Env K π} {ps : List (Point K)} (ho : e.output = addPoints ps) (hs : ∀ p ∈ ps, Sound p)
    (hc : ∀ p ∈ ps, e.canOpen p.file = true) : headersOk e.canOpen e.output = true := by
  have key : ∀ i, (ofInstant i ps).all (headerOk e.canOpen) = true := by
    intro i
    rw [List.all_eq_true]
    intro p hp
    have h1 := hs p (List.mem_of_mem_filter hp)
    have h2 := hc p (List.mem_of_mem_filter hp)
    obtain ⟨-, h1⟩ := h1
    unfold headerOk
    cases hk : p.kind <;> simp_all
  rw [ho, addPoints_eq]
  simp only [headersOk, key, Bool.and_self]

/-! ### The number of floorplan elements -/

theorem totalElements_eq (es : List (SElem K (List (FlpEl K)))) : totalElements es = (es.map elementsIn).sum % W := by
  have key : ∀ (es : List (SElem K (List (FlpEl K)))) n, es.foldl (fun n e => (n + elementsIn e) % W) (n % W) = (n + (es.map elementsIn).sum) % W := by
    intro es
    induction es with
    | nil => intro n; simp
    | cons a l ih =>
      intro n
      rw [List.foldl_cons, Nat.mod_add_mod, ih, List.map_cons, List.sum_cons, Nat.add_assoc]
  have := key es 0
  rw [Nat.zero_mod, Nat.zero_add] at this
  exact this

theorem assignOffsets_elements (es : List (SElem K (List (FlpEl K)))) : ∀ n, ((assignOffsets n es).map elementsIn) = es.map elementsIn := by
  induction es with
  | nil => intro n; rfl
  | cons a l ih => intro n; simp only [assignOffsets, List.map_cons, ih]; rfl

theorem resolve_elements {decl : Option (Channel K)} {r : Raw K (List (FlpEl K))} {e : SElem K (List (FlpEl K))} (h : resolve decl r = some e) :
    elementsIn e = (match r.body with | .die x => x.flp | _ => []).length := by
  unfold resolve at h
  cases hb : r.body with
  | die x => rw [hb] at h; simp at h; subst h; rfl
  | layer x => rw [hb] at h; simp at h; subst h; rfl
  | channel =>
    rw [hb] at h
    simp at h
    obtain ⟨c, -, h⟩ := h
    subst h; rfl

theorem total_fileElements {d : Dims K} {decl : Option (Channel K)} {sp : Option (Spreader K)} {rs : List (Raw K (List (FlpEl K)))}
    {p : Parsed K (List (FlpEl K))} (h : parseStack d decl sp rs = some p) (hW : (fileElements rs).length < 2 ^ 32) :
    totalElements p.elems = (fileElements rs).length := by
  obtain ⟨es, n, hf, -, -, -, -, -, he, -, -, -⟩ := parseStack_spec h
  have key : es.map elementsIn = rs.map fun r => (match r.body with | .die x => x.flp | _ => []).length := by
    clear he h hW
    induction hf with
    | nil => rfl
    | cons h1 _ ih => simp only [List.map_cons, resolve_elements h1, ih]
  rw [totalElements_eq, he, assignOffsets_elements, List.map_reverse, key, List.sum_reverse]
  have : ((rs.map fun r => (match r.body with | .die x => x.flp | _ => []).length)).sum = (fileElements rs).length := by
    unfold fileElements
    rw [List.length_flatMap, List.map_reverse, List.sum_reverse]
    rfl
  rw [this, Nat.mod_eq_of_lt (by rw [W_eq]; exact hW)]

/-! ### Messages -/

theorem insertWord_some {m m' : Msg} {t w : Nat} {ws : List Nat} (h : Holds m t ws) (hk : ∃ k, k ≤ 23 ∧ m.maxLen = 256 * 2 ^ k)
    (hi : Net.insertWord m w = some m') : Holds m' t (ws ++ [w]) ∧ ∃ k, k ≤ 23 ∧ m'.maxLen = 256 * 2 ^ k := by
  obtain ⟨k, hk, hm⟩ := hk
  have hle : m.maxLen ≤ 2147483648 := by
    rw [hm]
    calc 256 * 2 ^ k ≤ 256 * 2 ^ 23 := Nat.mul_le_mul_left _ (Nat.pow_le_pow_right (by norm_num) hk)
      _ = _ := by norm_num
  have hf := h.fits
  have hgrow : ws.length + 2 = m.maxLen → m.maxLen ≤ 2 * m.maxLen % Net.W := by
    intro hfull
    unfold Net.insertWord at hi
    rw [h.lengthWord] at hi
    simp only [hfull, if_true, Net.increase] at hi
    by_contra hc
    rw [if_neg (fun hh => hc hh.1)] at hi
    simp at hi
  have hne : ws.length + 2 ≠ 2147483648 := by
    intro heq
    have h1 : m.maxLen = 2147483648 := by omega
    have := hgrow (by omega)
    rw [h1] at this
    unfold Net.W at this
    omega
  obtain ⟨m1, e1, e2⟩ := Net.insertWord_spec h w (by omega)
  rw [hi] at e1
  simp only [Option.some.injEq] at e1
  subst e1
  refine ⟨e2, ?_⟩
  unfold Net.insertWord at hi
  rw [h.lengthWord] at hi
  simp only at hi
  by_cases hfull : ws.length + 2 = m.maxLen
  · have hk2 : k ≤ 22 := by
      by_contra hc
      have : k = 23 := by omega
      subst this
      norm_num at hm
      omega
    rw [if_pos hfull] at hi
    unfold Net.increase at hi
    rw [if_pos ⟨hgrow hfull, by rw [h.len]⟩] at hi
    simp only at hi
    split at hi
    · simp only [Option.some.injEq] at hi
      refine ⟨k + 1, by omega, ?_⟩
      rw [← hi]
      show 2 * m.maxLen % Net.W = _
      have h5 : m.maxLen ≤ 256 * 2 ^ 22 := by
        rw [hm]; exact Nat.mul_le_mul_left _ (Nat.pow_le_pow_right (by norm_num) hk2)
      rw [Nat.mod_eq_of_lt (by unfold Net.W; norm_num at h5; omega), hm, pow_succ]; ring
    · simp at hi
  · rw [if_neg hfull] at hi
    simp only at hi
    split at hi
    · simp only [Option.some.injEq] at hi
      exact ⟨k, hk, by rw [← hi]; exact hm⟩
    · simp at hi

/-- A message that could be built holds its words. -/
theorem buildMessage_some {t : Nat} {ws : List Nat} {m : Msg} (h : buildMessage t ws = some m) : Holds m t ws := by
  obtain ⟨m0, h0, h1⟩ := Net.buildHead_init t
  unfold buildMessage at h
  rw [h0] at h
  simp only at h
  have hk : ∃ k, k ≤ 23 ∧ m0.maxLen = 256 * 2 ^ k := by
    refine ⟨0, by omega, ?_⟩
    unfold Net.buildHead at h0
    split at h0
    · simp only [Option.some.injEq] at h0
      rw [← h0, Net.init_eq]; rfl
    · simp at h0
  have key : ∀ (xs ws : List Nat) (m0 : Msg), Holds m0 t ws → (∃ k, k ≤ 23 ∧ m0.maxLen = 256 * 2 ^ k) → Net.insertWords m0 xs = some m → Holds m t (ws ++ xs) := by
    intro xs
    induction xs with
    | nil => intro ws m0 h1 _ h; simp only [Net.insertWords, Option.some.injEq] at h; subst h; simpa using h1
    | cons x xs ih =>
      intro ws m0 h1 hk h
      simp only [Net.insertWords] at h
      cases hi : Net.insertWord m0 x with
      | none => rw [hi] at h; simp at h
      | some m1 =>
        rw [hi] at h
        obtain ⟨a, b⟩ := insertWord_some h1 hk hi
        have := ih _ _ a b h
        simpa using this
  have := key ws [] m0 h1 hk h
  simpa using this

/-! ### One request -/

/-- What does not change while the server runs, and what its state stays. -/
structure Serving (e : Env K π) (ps : List (Point K)) (rs : List (Raw K (List (FlpEl K)))) (s : State K π) : Prop where
  transient : e.cfg.an.type = .transient
  slotLength : 0 < e.cfg.an.slotLength
  state : ∃ s0 ops, Started e.cfg rs s0 ∧ (run e.cfg ops s0).2 = s.sim
  count : totalElements e.elems = (fileElements rs).length
  output : e.output = addPoints ps
  sound : ∀ p ∈ ps, Sound p
  writable : ∀ p ∈ ps, e.canOpen p.file = true

theorem Launched.serving {e : Env K π} {ps : List (Point K)} {rs : List (Raw K (List (FlpEl K)))} {s : State K π} (h : Launched e ps rs s)
    (hW : (fileElements rs).length < 2 ^ 32) : Serving e ps rs s := by
  obtain ⟨d0, decl, p, q, h1, h2, h3, h4⟩ := h.built
  refine ⟨h.transient, h.slotLength, ⟨s.sim, [], ⟨d0, decl, p, q, h1, h2, h3⟩, rfl⟩, ?_, h.output, h.sound, h.writable⟩
  rw [h4]
  exact total_fileElements h1.parse hW

theorem Serving.reachable {e : Env K π} {ps : List (Point K)} {rs : List (Raw K (List (FlpEl K)))} {s : State K π} (h : Serving e ps rs s) :
    Reachable e.cfg s.sim := by
  obtain ⟨s0, ops, h1, h2⟩ := h.state
  exact ⟨rs, s0, ops, h1, h2⟩

theorem Serving.elements {e : Env K π} {ps : List (Point K)} {rs : List (Raw K (List (FlpEl K)))} {s : State K π} (h : Serving e ps rs s) :
    (elements s.sim).length = (fileElements rs).length := by
  obtain ⟨s0, ops, h1, h2⟩ := h.state
  have := congrArg List.length (C35_element_order h1 ops)
  rw [h2] at this
  simpa using this

theorem Serving.exec {e : Env K π} {ps : List (Point K)} {rs : List (Raw K (List (FlpEl K)))} {s : State K π} (h : Serving e ps rs s) (o : Op K)
    (b : Bool) (l : Log K) : Serving e ps rs ⟨(Emu.exec e.cfg o s.sim).2, b, l⟩ := by
  obtain ⟨h1, h2, ⟨s0, ops, h3, h4⟩, h5, h6, h7, h8⟩ := h
  exact ⟨h1, h2, ⟨s0, ops ++ [o], h3, by rw [run_append, h4]; rfl⟩, h5, h6, h7, h8⟩

theorem Serving.other {e : Env K π} {ps : List (Point K)} {rs : List (Raw K (List (FlpEl K)))} {s : State K π} (h : Serving e ps rs s)
    (b : Bool) (l : Log K) : Serving e ps rs ⟨s.sim, b, l⟩ := by
  obtain ⟨h1, h2, h3, h5, h6, h7, h8⟩ := h
  exact ⟨h1, h2, h3, h5, h6, h7, h8⟩

theorem Serving.slot {e : Env K π} {ps : List (Point K)} {rs : List (Raw K (List (FlpEl K)))} {s : State K π} (h : Serving e ps rs s)
    {r : SimResult} {sim : Sim K π} (hr : SlotRun e.cfg s.sim r sim) (b : Bool) (l : Log K) : Serving e ps rs ⟨sim, b, l⟩ := by
  have key : ∀ {x y : Sim K π} {r : SimResult}, SlotRun e.cfg x r y → Serving e ps rs ⟨x, b, l⟩ → Serving e ps rs ⟨y, b, l⟩ := by
    intro x y r hr
    induction hr with
    | stop he _ => intro hx; have := hx.exec .step b l; simp only [Emu.exec, he] at this; exact this
    | again he _ ih => intro hx; refine ih ?_; have := hx.exec .step b l; simp only [Emu.exec, he] at this; exact this
  exact key hr (h.other b l)

/-- The reply message, if any, holds the words. -/
def Carries (t : Nat) : Option Msg → Option (List Nat) → Prop
  | none, none => True
  | some m, some ws => Holds m t ws
  | _, _ => False

theorem afterSlot_eq {r : SimResult} (h : r ≠ .stepDone) (s : State K π) : afterSlot r s = goesOn r s := by
  cases r <;> simp_all [afterSlot, goesOn]

theorem afterStep_eq (r : SimResult) (s : State K π) : afterStep r s = goesOn r s := by
  cases r <;> simp [afterStep, goesOn]

theorem slotRun_ne {cfg : Cfg K π} {s s' : Sim K π} {r : SimResult} (h : SlotRun cfg s r s') : r ≠ .stepDone := by
  induction h with
  | stop _ h => exact h
  | again _ _ ih => exact ih

theorem goesOn_run {r : SimResult} {s s' : State K π} (h : goesOn r s = .run s') : s' = s := by
  cases r <;> simp [goesOn] at h <;> exact h.symm

theorem extracted_eq {e : Env K π} {m : Msg} {ws : List Nat} {vs : List K} (hm : Holds m 5 (ws.length :: ws))
    (h : Extracted e m ws.length vs) : vs = ws.map e.ofFloat := by
  obtain ⟨h1, h2⟩ := h
  apply List.ext_getElem?
  intro i
  by_cases hi : i < ws.length
  · have hw : (ws.length :: ws)[i + 1]? = some ws[i] := by rw [List.getElem?_cons_succ, List.getElem?_eq_getElem hi]
    have := Net.extract_spec hm (i + 1) _ hw
    rcases h2 i hi with ⟨w, h3, h4⟩ | h3
    · rw [this] at h3
      cases h3
      rw [h4, List.getElem?_map, List.getElem?_eq_getElem hi]; rfl
    · rw [this] at h3; cases h3
  · rw [List.getElem?_eq_none (by omega), List.getElem?_eq_none (by simp; omega)]

theorem files_names (ps : List (Point K)) : (addPoints ps).final.map (fun p => bytesOf p.file) ++ (addPoints ps).slot.map (fun p => bytesOf p.file) ++
    (addPoints ps).step.map (fun p => bytesOf p.file) = (ofInstant .final ps ++ ofInstant .slot ps ++ ofInstant .step ps).map fun p => bytesOf p.file := by
  rw [addPoints_eq]; simp

/-- The server answers a request as specified. -/
theorem handles_answers {e : Env K π} {ps : List (Point K)} {rs : List (Raw K (List (FlpEl K)))} {s : State K π} (hs : Serving e ps rs s)
    (hW : ps.length < 2 ^ 32) {req : Request} (hv : req.Valid) {m : Msg} (hm : Holds m req.type req.words) {rep : Option Msg} {n : Next K π}
    (h : Handles e s m rep n) :
    ∃ ws, Carries req.type rep ws ∧ Answers e ps s req ws n ∧ ∀ s', n = .run s' → Serving e ps rs s' := by
  have ht := hm.typeWord
  have hx := fun i w hi => Net.extract_spec hm i w hi
  rw [← W_eq] at hW
  cases h with
  | exit h1 =>
    rw [ht, Option.some.injEq] at h1
    cases req <;> simp [Request.type] at h1
    · exact ⟨none, trivial, ⟨rfl, rfl⟩, by intro s' h; cases h⟩
    · have := hv.2.2.2; simp at this; omega
  | reset h1 =>
    rw [ht, Option.some.injEq] at h1
    cases req <;> simp [Request.type] at h1
    · refine ⟨none, trivial, ⟨rfl, rfl⟩, ?_⟩
      intro s' h; cases h; exact hs.exec .reset _ _
    · have := hv.2.2.2; simp at this; omega
  | @output i t q r h1 h2 h3 h4 h5 =>
    rw [ht, Option.some.injEq] at h1
    cases req <;> simp [Request.type] at h1
    · rename_i i' t' q'
      have e1 := hx 0 i' rfl
      have e2 := hx 1 t' rfl
      have e3 := hx 2 q' rfl
      rw [h2] at e1; rw [h3] at e2; rw [h4] at e3
      cases e1; cases e2; cases e3
      refine ⟨some (outputWords e s.sim i t q), buildMessage_some h5, ⟨?_, rfl⟩, ?_⟩
      · rw [outputWords_eq e s.sim hs.output hs.sound hW]
      · intro s' h; cases h; exact hs
    · have := hv.2.2.2; simp at this; omega
  | @print i h1 h2 h3 =>
    rw [ht, Option.some.injEq] at h1
    cases req <;> simp [Request.type] at h1
    · rename_i i'
      have e1 := hx 0 i' rfl
      rw [h2] at e1
      cases e1
      refine ⟨none, trivial, ⟨rfl, ?_⟩, ?_⟩
      · unfold printed
        rw [outputNow_eq e s.sim hs.output hs.sound hs.writable]
      · intro s' h; cases h; exact hs.other _ _
    · have := hv.2.2.2; simp at this; omega
  | @printFails i h1 h2 h3 h4 =>
    rw [headersOk_true hs.output hs.sound hs.writable] at h4
    cases h4
  | total h1 h2 =>
    rw [ht, Option.some.injEq] at h1
    cases req <;> simp [Request.type] at h1
    · refine ⟨some [totalElements e.elems], buildMessage_some h2, ⟨?_, rfl⟩, ?_⟩
      · rw [hs.count, hs.elements]
      · intro s' h; cases h; exact hs
    · have := hv.2.2.2; simp at this; omega
  | @insert n vs sim r h1 h2 h3 h4 h5 =>
    rw [ht, Option.some.injEq] at h1
    cases req <;> simp [Request.type] at h1
    · rename_i ws
      have e1 := hx 0 ws.length rfl
      rw [h2] at e1
      cases e1
      have hvs := extracted_eq hm h3
      subst hvs
      obtain ⟨c1, c2, -⟩ := C35_inserted_in_order hs.reachable (ws.map e.ofFloat)
      rw [h4, List.length_map] at c1 c2
      have hle : (elements s.sim).length ≤ ws.length := by
        by_contra hc
        have := c2 (by omega)
        cases this
      refine ⟨some [0], buildMessage_some h5, ?_, ?_⟩
      · simp only [Answers, if_pos hle]
        refine ⟨trivial, sim, rfl, by rw [h4], ?_⟩
        rw [(c1 hle).2, List.zipWith_map_right]
      · intro s' h; cases h
        have := hs.exec (.insert (ws.map e.ofFloat)) s.headers s.log
        simp only [Emu.exec, h4] at this
        exact this
    · have := hv.2.2.2; simp at this; omega
  | @insertFails n vs sim h1 h2 h3 h4 =>
    rw [ht, Option.some.injEq] at h1
    cases req <;> simp [Request.type] at h1
    · rename_i ws
      have e1 := hx 0 ws.length rfl
      rw [h2] at e1
      cases e1
      have hvs := extracted_eq hm h3
      subst hvs
      obtain ⟨c1, c2, -⟩ := C35_inserted_in_order hs.reachable (ws.map e.ofFloat)
      rw [h4, List.length_map] at c1 c2
      have hle : ¬ (elements s.sim).length ≤ ws.length := by
        intro hc
        have := (c1 hc).1
        cases this
      refine ⟨none, trivial, ?_, ?_⟩
      · simp only [Answers, if_neg hle]
        exact ⟨trivial, _, rfl⟩
      · intro s' h; cases h
    · have := hv.2.2.2; simp at this; omega
  | @slot r sim rep' h1 h2 h3 =>
    rw [ht, Option.some.injEq] at h1
    cases req <;> simp [Request.type] at h1
    · have hne := slotRun_ne h2
      rw [afterSlot_eq hne]
      refine ⟨some [simCode r], buildMessage_some h3, ⟨r, sim, h2, rfl, hne, rfl⟩, ?_⟩
      intro s' h
      rw [goesOn_run h]
      exact hs.slot h2 _ _
    · have := hv.2.2.2; simp at this; omega
  | @step r sim rep' h1 h2 h3 =>
    rw [ht, Option.some.injEq] at h1
    cases req <;> simp [Request.type] at h1
    · rw [afterStep_eq]
      refine ⟨some [simCode r], buildMessage_some h3, ⟨r, sim, h2, rfl, rfl⟩, ?_⟩
      intro s' h
      rw [goesOn_run h]
      have := hs.exec .step s.headers s.log
      simp only [Emu.exec, h2] at this
      exact this
    · have := hv.2.2.2; simp at this; omega
  | @files ws rep' h1 h2 h3 =>
    rw [ht, Option.some.injEq] at h1
    cases req <;> simp [Request.type] at h1
    · obtain ⟨sent, e1, e2, -⟩ := Net.C49_output_files_reply _ _ _ _ _ h2
      rw [hs.output, files_names] at e2
      subst e2
      refine ⟨some ws, buildMessage_some h3, ⟨_, rfl, Or.inl ⟨by rw [e1], rfl⟩⟩, ?_⟩
      intro s' h; cases h; exact hs
    · have := hv.2.2.2; simp at this; omega
  | filesFail h1 h2 =>
    rw [ht, Option.some.injEq] at h1
    cases req <;> simp [Request.type] at h1
    · refine ⟨none, trivial, ⟨_, rfl, Or.inr ⟨rfl, rfl, ?_⟩⟩, ?_⟩
      · by_contra hc
        have := Net.C49_succeeds_up_to_1024 (e.disk s.headers s.log) (e.output.final.map fun p => bytesOf p.file)
          (e.output.slot.map fun p => bytesOf p.file) (e.output.step.map fun p => bytesOf p.file)
          (by rw [hs.output, files_names]; omega)
        rw [h2] at this
        cases this
      · intro s' h; cases h
    · have := hv.2.2.2; simp at this; omega
  | @unknown t h1 h2 =>
    rw [ht, Option.some.injEq] at h1
    cases req <;> simp [Request.type] at h1
    all_goals first
      | omega
      | (refine ⟨none, trivial, ⟨rfl, rfl⟩, ?_⟩; intro s' h; cases h; exact hs)

/-! ### The client has disconnected -/

theorem readLoop_closed (sched : List ReadEv) (n : Nat) :
    (Net.readLoop sched (n + 1) []).got = [] ∧ (Net.readLoop sched (n + 1) []).status ≠ .ok ∧
      ((Net.readLoop sched (n + 1) []).status = .blocked → dataCount sched = 0) := by
  induction sched with
  | nil => exact ⟨rfl, by simp [Net.readLoop], fun _ => rfl⟩
  | cons ev sched ih =>
    cases ev with
    | eintr => simpa [Net.readLoop, dataCount] using ih
    | err => simp [Net.readLoop]
    | data k => simp [Net.readLoop]

theorem receive_closed (sched : List ReadEv) : ∃ r, receive sched [] Net.init = some r ∧ r.msg = Net.init ∧
    (r.status = .blocked → dataCount sched = 0) := by
  obtain ⟨h1, h2, h3⟩ := readLoop_closed sched 3
  unfold receive
  simp only [Nat.reduceAdd] at h1 h2 h3
  cases hst : (Net.readLoop sched 4 []).status with
  | ok => exact absurd hst h2
  | blocked => simp only [hst]; exact ⟨_, rfl, rfl, fun _ => h3 hst⟩
  | failure => simp only [hst]; exact ⟨_, rfl, rfl, by simp⟩

theorem typeWord_init : typeWord Net.init = some 0 := by
  rw [Net.init_eq]
  generalize List.replicate 254 0 = r
  simp [typeWord]

theorem handles_init {e : Env K π} {s : State K π} {rep : Option Msg} {n : Next K π} (h : Handles e s Net.init rep n) : rep = none ∧ n = .quit s := by
  have ht := typeWord_init
  cases h with
  | exit _ => exact ⟨rfl, rfl⟩
  | unknown h1 h2 => rw [ht, Option.some.injEq] at h1; omega
  | reset h1 => rw [ht] at h1; simp at h1
  | output h1 => rw [ht] at h1; simp at h1
  | print h1 => rw [ht] at h1; simp at h1
  | printFails h1 => rw [ht] at h1; simp at h1
  | total h1 => rw [ht] at h1; simp at h1
  | insert h1 => rw [ht] at h1; simp at h1
  | insertFails h1 => rw [ht] at h1; simp at h1
  | slot h1 => rw [ht] at h1; simp at h1
  | step h1 => rw [ht] at h1; simp at h1
  | files h1 => rw [ht] at h1; simp at h1
  | filesFail h1 => rw [ht] at h1; simp at h1

/-! ### A whole session -/

/-- The bytes a client sends. -/
def sent (reqs : List Request) : List Nat := reqs.flatMap Request.wire

theorem carries_list {t : Nat} {rep : Option Msg} {ws : Option (List Nat)} (h : Carries t rep ws) :
    List.Forall₂ (fun m (r : Nat × List Nat) => Holds m r.1 r.2) rep.toList (ws.toList.map fun x => (t, x)) := by
  cases rep <;> cases ws
  · exact .nil
  · exact h.elim
  · exact h.elim
  · exact .cons h .nil

theorem serve_answered {e : Env K π} {ps : List (Point K)} {rs : List (Raw K (List (FlpEl K)))} (hW : ps.length < 2 ^ 32)
    {sched : List ReadEv} {stream : List Nat} {s : State K π} {msgs : List Msg} {fin : Final K π} (h : Serve e sched stream s msgs fin) :
    ∀ reqs : List Request, stream = sent reqs → (∀ r ∈ reqs, r.Valid) → (∀ ev ∈ sched, ev ≠ .err) → Serving e ps rs s →
      ∃ reps, List.Forall₂ (fun m (r : Nat × List Nat) => Holds m r.1 r.2) msgs reps ∧ Answered e ps s reqs reps fin ∧
        (∀ s', fin = .waiting s' → dataCount sched ≤ stream.length) := by
  induction h with
  | @wait sched stream s r h1 h2 =>
    intro reqs he hv hev hs
    refine ⟨[], .nil, .waits, ?_⟩
    intro s' _
    cases reqs with
    | nil =>
      obtain ⟨r', e1, -, e3⟩ := receive_closed sched
      subst he
      simp only [sent, List.flatMap_nil] at h1
      rw [e1] at h1; cases h1
      rw [e3 h2]; exact Nat.zero_le _
    | cons q qs =>
      obtain ⟨v1, v2, v3, -⟩ := hv q (by simp)
      obtain ⟨r', e1, e2⟩ := Net.C06_receive q.type q.words (sent qs) v3 v1 v2 Net.init Net.ready_init sched hev
      subst he
      simp only [sent, List.flatMap_cons, Request.wire] at h1 ⊢
      simp only [sent] at e1
      rw [e1] at h1; cases h1
      rcases e2 with ⟨e2, -⟩ | ⟨-, e2⟩
      · rw [e2] at h2; cases h2
      · rw [List.length_append, Net.wire_length]; omega
  | @quit sched stream s r rep s' h1 h2 h3 =>
    intro reqs he hv hev hs
    cases reqs with
    | nil =>
      obtain ⟨r', e1, e2, e3⟩ := receive_closed sched
      subst he
      simp only [sent, List.flatMap_nil] at h1
      rw [e1] at h1; cases h1
      rw [e2] at h3
      obtain ⟨rfl, h4⟩ := handles_init h3
      cases h4
      exact ⟨[], .nil, .disconnected, by intro s' h; cases h⟩
    | cons q qs =>
      obtain ⟨v1, v2, v3, -⟩ := hv q (by simp)
      obtain ⟨r', e1, e2⟩ := Net.C06_receive q.type q.words (sent qs) v3 v1 v2 Net.init Net.ready_init sched hev
      subst he
      simp only [sent, List.flatMap_cons, Request.wire] at h1 ⊢
      simp only [sent] at e1
      rw [e1] at h1; cases h1
      rcases e2 with ⟨e2, e3, -⟩ | ⟨e2, -⟩
      · obtain ⟨ws, c1, c2, -⟩ := handles_answers hs hW (hv q (by simp)) e3 h3
        exact ⟨_, carries_list c1, .quits c2, by intro s' h; cases h⟩
      · exact absurd e2 h2
  | @error sched stream s r rep s' h1 h2 h3 =>
    intro reqs he hv hev hs
    cases reqs with
    | nil =>
      obtain ⟨r', e1, e2, e3⟩ := receive_closed sched
      subst he
      simp only [sent, List.flatMap_nil] at h1
      rw [e1] at h1; cases h1
      rw [e2] at h3
      obtain ⟨-, h4⟩ := handles_init h3
      cases h4
    | cons q qs =>
      obtain ⟨v1, v2, v3, -⟩ := hv q (by simp)
      obtain ⟨r', e1, e2⟩ := Net.C06_receive q.type q.words (sent qs) v3 v1 v2 Net.init Net.ready_init sched hev
      subst he
      simp only [sent, List.flatMap_cons, Request.wire] at h1 ⊢
      simp only [sent] at e1
      rw [e1] at h1; cases h1
      rcases e2 with ⟨e2, e3, -⟩ | ⟨e2, -⟩
      · obtain ⟨ws, c1, c2, -⟩ := handles_answers hs hW (hv q (by simp)) e3 h3
        exact ⟨_, carries_list c1, .fails c2, by intro s' h; cases h⟩
      · exact absurd e2 h2
  | @next sched stream s r rep s' reps f h1 h2 h3 h4 ih =>
    intro reqs he hv hev hs
    cases reqs with
    | nil =>
      obtain ⟨r', e1, e2, e3⟩ := receive_closed sched
      subst he
      simp only [sent, List.flatMap_nil] at h1
      rw [e1] at h1; cases h1
      rw [e2] at h3
      obtain ⟨-, h4⟩ := handles_init h3
      cases h4
    | cons q qs =>
      obtain ⟨v1, v2, v3, -⟩ := hv q (by simp)
      obtain ⟨r', e1, e2⟩ := Net.C06_receive q.type q.words (sent qs) v3 v1 v2 Net.init Net.ready_init sched hev
      subst he
      simp only [sent, List.flatMap_cons, Request.wire] at h1 ⊢
      simp only [sent] at e1
      rw [e1] at h1; cases h1
      rcases e2 with ⟨e2, e3, e4, e5, e6⟩ | ⟨e2, -⟩
      · obtain ⟨ws, c1, c2, c3⟩ := handles_answers hs hW (hv q (by simp)) e3 h3
        obtain ⟨reps', d1, d2, d3⟩ := ih qs e4 (fun r hr => hv r (by simp [hr])) (fun ev hh => hev ev (e5 ev hh)) (c3 s' rfl)
        refine ⟨_, List.rel_append (carries_list c1) d1, .next c2 d2, ?_⟩
        intro s'' hf
        have := d3 s'' hf
        rw [e4] at this
        rw [List.length_append, Net.wire_length]
        simp only [sent, Request.wire] at this
        omega
      · exact absurd e2 h2

/-- **C34** Every session of a server with a client that sends the requests `reqs` and then disconnects, whatever way the bytes are
delivered: the replies the server sends are the specified ones, in the order of the requests, and the server ends when a request ends it
or when the client has disconnected. It waits only while the client's bytes have not all been delivered (at most one `read` per byte, and
one that reports the end, are needed). Deviations from the text of include/types.h are stated separately below.
(Not covered: non-uniform grids and 3D maps; replies of 2^31 words or more cannot be built.) -/
theorem C34_answers_in_order_partial {e : Env K π} {ps : List (Point K)} {rs : List (Raw K (List (FlpEl K)))} {s : State K π} (h : Launched e ps rs s)
    (hel : (fileElements rs).length < 2 ^ 32) (hps : ps.length < 2 ^ 32) {reqs : List Request} (hv : ∀ r ∈ reqs, r.Valid) {sched : List ReadEv}
    (hev : ∀ ev ∈ sched, ev ≠ .err) {msgs : List Msg} {fin : Final K π} (hrun : Serve e sched (sent reqs) s msgs fin) :
    ∃ reps, List.Forall₂ (fun m (r : Nat × List Nat) => Holds m r.1 r.2) msgs reps ∧ Answered e ps s reqs reps fin ∧
      (∀ s', fin = .waiting s' → dataCount sched ≤ (sent reqs).length) :=
  serve_answered hps hrun reqs rfl hv hev (h.serving hel)

/-! ### The server always gets to an answer -/

/-- No reply has 2^31 words or more (8 GiB). -/
def RepliesFit (e : Env K π) (ps : List (Point K)) : Prop :=
  (∀ s i t q, ((asked ps i t q).flatMap (answerOf e s)).length + 4 < 2 ^ 31) ∧
  ∀ b l names, names = (ofInstant .final ps ++ ofInstant .slot ps ++ ofInstant .step ps).map (fun p => bytesOf p.file) →
    ((filesToSend (e.disk b l) [] names).flatMap (fileRecord (e.disk b l))).length + 3 < 2 ^ 31

theorem handles_total {e : Env K π} {ps : List (Point K)} {rs : List (Raw K (List (FlpEl K)))} {s : State K π} (hs : Serving e ps rs s)
    (hW : ps.length < 2 ^ 32) (hfit : RepliesFit e ps) {req : Request} (hv : req.Valid) {m : Msg} (hm : Holds m req.type req.words) :
    ∃ rep n, Handles e s m rep n := by
  have ht := hm.typeWord
  have hx := fun i w hi => Net.extract_spec hm i w hi
  have hW' := hW
  rw [← W_eq] at hW'
  cases req with
  | exit => exact ⟨_, _, .exit ht⟩
  | reset => exact ⟨_, _, .reset ht⟩
  | output i t q =>
    have hlen : (outputWords e s.sim i t q).length + 2 < 2147483648 := by
      rw [outputWords_eq e s.sim hs.output hs.sound hW']
      have := hfit.1 s.sim i t q
      simp only [List.length_cons]
      rw [show 2 ^ 31 = 2147483648 from by norm_num] at this
      omega
    obtain ⟨r, h1, -⟩ := Net.buildMessage_holds 2 _ hlen
    exact ⟨_, _, .output ht (hx 0 i rfl) (hx 1 t rfl) (hx 2 q rfl) h1⟩
  | print i => exact ⟨_, _, .print ht (hx 0 i rfl) (Or.inr (headersOk_true hs.output hs.sound hs.writable))⟩
  | total =>
    obtain ⟨r, h1, -⟩ := Net.buildMessage_holds 4 [totalElements e.elems] (by simp)
    exact ⟨_, _, .total ht h1⟩
  | insert ws =>
    have hex : Extracted e m ws.length (ws.map e.ofFloat) := by
      refine ⟨by simp, fun i hi => Or.inl ⟨ws[i], ?_, ?_⟩⟩
      · exact hx (i + 1) _ (by show (ws.length :: ws)[i + 1]? = _; rw [List.getElem?_cons_succ, List.getElem?_eq_getElem hi])
      · rw [List.getElem?_map, List.getElem?_eq_getElem hi]; rfl
    obtain ⟨r, h1, -⟩ := Net.buildMessage_holds 5 [0] (by simp)
    cases hb : (insertPowerValues s.sim (ws.map e.ofFloat)).2 with
    | true => exact ⟨_, _, .insert ht (hx 0 ws.length rfl) hex (Prod.ext rfl hb) h1⟩
    | false => exact ⟨_, _, .insertFails ht (hx 0 ws.length rfl) hex (Prod.ext rfl hb)⟩
  | slot =>
    obtain ⟨r, sim, h1, -, -⟩ := C11_slot_terminates hs.slotLength hs.reachable
    obtain ⟨rep, h2, -⟩ := Net.buildMessage_holds 6 [simCode r] (by simp)
    exact ⟨_, _, .slot ht h1 h2⟩
  | step =>
    obtain ⟨rep, h2, -⟩ := Net.buildMessage_holds 7 [simCode (emulateStep e.cfg s.sim).1] (by simp)
    exact ⟨_, _, .step ht rfl h2⟩
  | files =>
    cases hw : outputFilesWords (e.disk s.headers s.log) (e.output.final.map fun p => bytesOf p.file)
        (e.output.slot.map fun p => bytesOf p.file) (e.output.step.map fun p => bytesOf p.file) with
    | none => exact ⟨_, _, .filesFail ht hw⟩
    | some ws =>
      have hlen : ws.length + 2 < 2147483648 := by
        obtain ⟨sent, e1, e2, -⟩ := Net.C49_output_files_reply _ _ _ _ _ hw
        rw [hs.output, files_names] at e2
        have := hfit.2 s.headers s.log _ rfl
        rw [← e2] at this
        rw [e1, List.length_cons]
        rw [show 2 ^ 31 = 2147483648 from by norm_num] at this
        omega
      obtain ⟨rep, h2, -⟩ := Net.buildMessage_holds 8 ws hlen
      exact ⟨_, _, .files ht hw h2⟩
  | unknown t ws => exact ⟨_, _, .unknown ht hv.2.2.2⟩

/-- **C34** A session always exists: the server never gets stuck on a request (`emulate_slot` always returns, C11). With the previous theorem: if all
the client's bytes and the end of the stream are delivered, the server answers every request up to the one that ends it, then ends. -/
theorem C34_never_stuck {e : Env K π} {ps : List (Point K)} {rs : List (Raw K (List (FlpEl K)))} {s : State K π} (h : Launched e ps rs s)
    (hel : (fileElements rs).length < 2 ^ 32) (hps : ps.length < 2 ^ 32) (hfit : RepliesFit e ps) {reqs : List Request} (hv : ∀ r ∈ reqs, r.Valid)
    {sched : List ReadEv} (hev : ∀ ev ∈ sched, ev ≠ .err) : ∃ msgs fin, Serve e sched (sent reqs) s msgs fin := by
  have hs := h.serving hel
  clear h
  induction reqs generalizing s sched with
  | nil =>
    obtain ⟨r, e1, e2, -⟩ := receive_closed sched
    by_cases hb : r.status = .blocked
    · exact ⟨_, _, .wait e1 hb⟩
    · exact ⟨_, _, .quit e1 hb (.exit (by rw [e2]; exact typeWord_init))⟩
  | cons q qs ih =>
    obtain ⟨v1, v2, v3, -⟩ := hv q (by simp)
    obtain ⟨r, e1, e2⟩ := Net.C06_receive q.type q.words (sent qs) v3 v1 v2 Net.init Net.ready_init sched hev
    have e1' : receive sched (sent (q :: qs)) Net.init = some r := by
      simp only [sent, List.flatMap_cons, Request.wire]; exact e1
    rcases e2 with ⟨e2, e3, e4, e5, -⟩ | ⟨e2, -⟩
    · have hb : r.status ≠ .blocked := by rw [e2]; simp
      obtain ⟨rep, n, h1⟩ := handles_total hs hps hfit (hv q (by simp)) e3
      cases n with
      | quit s' => exact ⟨_, _, .quit e1' hb h1⟩
      | error s' => exact ⟨_, _, .error e1' hb h1⟩
      | run s' =>
        obtain ⟨ws, -, -, c3⟩ := handles_answers hs hps (hv q (by simp)) e3 h1
        obtain ⟨msgs, fin, h2⟩ := ih (fun r hr => hv r (by simp [hr])) (fun ev hh => hev ev (e5 ev hh)) (c3 s' rfl)
        exact ⟨_, _, .next e1' hb h1 (by rw [e4]; exact h2)⟩
    · exact ⟨_, _, .wait e1' e2⟩

/-! ### Where the server does not do what include/types.h says -/

/-- **C34 is violated** (output request): include/types.h:602-606 documents `| length | TDICE_SEND_OUTPUT | nip | ip 1 | …`, with the number of points
in word 0. The server sends the simulated time in word 0 and the number of points in word 1. -/
theorem C34_output_word_zero_violated {e : Env K π} {ps : List (Point K)} {rs : List (Raw K (List (FlpEl K)))} {s : State K π} (h : Launched e ps rs s)
    (hel : (fileElements rs).length < 2 ^ 32) (hps : ps.length < 2 ^ 32) {i t q : Nat} (hv : (Request.output i t q).Valid) {m : Msg}
    (hm : Holds m 2 [i, t, q]) {rep : Msg} {n : Next K π} (hr : Handles e s m (some rep) n) :
    extract rep 0 = .ok (e.toFloat ((s.sim.time : K) * e.cfg.an.stepTime)) ∧ extract rep 1 = .ok (asked ps i t q).length := by
  obtain ⟨ws, c1, ⟨c2, -⟩, -⟩ := handles_answers (h.serving hel) hps hv hm hr
  subst c2
  exact ⟨Net.extract_spec c1 0 _ rfl, Net.extract_spec c1 1 _ rfl⟩

/-- **C34 is violated** (failing power insertion): include/types.h:672-676 documents the reply `| 3 | TDICE_INSERT_POWERS | Error_t |`. When there are fewer
values than floorplan elements the server sends nothing and terminates. -/
theorem C34_insert_failure_violated {e : Env K π} {ps : List (Point K)} {rs : List (Raw K (List (FlpEl K)))} {s : State K π} (h : Launched e ps rs s)
    (hel : (fileElements rs).length < 2 ^ 32) (hps : ps.length < 2 ^ 32) {vs : List Nat} (hv : (Request.insert vs).Valid)
    (hshort : vs.length < (fileElements rs).length) {m : Msg} (hm : Holds m 5 (vs.length :: vs)) {rep : Option Msg} {n : Next K π}
    (hr : Handles e s m rep n) : rep = none ∧ ∃ s', n = .error s' := by
  obtain ⟨ws, c1, c2, -⟩ := handles_answers (h.serving hel) hps hv hm hr
  have hel' := (h.serving hel).elements
  simp only [Answers] at c2
  rw [if_neg (by omega)] at c2
  obtain ⟨rfl, c3⟩ := c2
  cases rep with
  | none => exact ⟨rfl, c3⟩
  | some r => exact c1.elim

/-! ### A server to exercise the theorems -/

/-- A server on the demonstration stack: two floorplan elements, one point of each instant. -/
def demoPoints : List (Point ℚ) :=
  [⟨.slot, .tmap 1, .none, "map.txt"⟩, ⟨.slot, .tflp 0 [demoEl "a" [], demoEl "b" []], .maximum, "max.txt"⟩, ⟨.final, .tcell 0 0 1, .none, "cell.txt"⟩]
def demoEnv : Env ℚ Unit :=
  { cfg := demoCfg .transient 2, elems := [⟨"die", .die ⟨[exLayer 20, exLayer 5], 0, [demoEl "a" [1, 2], demoEl "b" [4]]⟩, 0⟩],
    output := addPoints demoPoints, canOpen := fun _ => true, ofFloat := fun w => w, toFloat := fun x => x.num.natAbs, header := fun _ => [37, 32],
    disk := fun _ _ n => if n = bytesOf "map.txt" then some [49, 10] else none }
def demoState : State ℚ Unit := ⟨demoSim .transient 2 [1, 2] [4], false, []⟩

theorem demo_launched : Launched demoEnv demoPoints (demoRaw [1, 2] [4]) demoState := by
  refine ⟨rfl, by decide, ?_, rfl, ?_, fun _ _ => rfl, rfl, rfl⟩
  · refine ⟨exDims, none, ⟨[⟨"die", .die ⟨[exLayer 20, exLayer 5], 0, [demoEl "a" [1, 2], demoEl "b" [4]]⟩, 0⟩], exSolidD,
      ((parseStack exDims none (some exSpreader) (demoRaw [1, 2] [4])).get rfl).nConn⟩, (), ?_, rfl, ?_, rfl⟩
    · refine ⟨(by decide : 1 ≤ exSolidD.nRows), (by decide : 1 ≤ exSolidD.nCols), ?_, ?_, rfl, rfl⟩
      · intro s h; simp [spreaderOf, exSolidG, demoSim, demoState] at h; subst h
        exact (by decide : exSpreader.nRows = exSpreader.rowsBorder + exSolidD.nRows + exSpreader.rowsBorder ∧
          exSpreader.nCols = exSpreader.colsBorder + exSolidD.nCols + exSpreader.colsBorder)
      · rintro ch h; simp at h
    · unfold build; rw [if_pos (by rfl)]; rfl
  · intro p hp
    fin_cases hp <;> simp [Sound]

theorem sublist_flatMap {α β : Type} {l l' : List α} (h : l.Sublist l') (f : α → List β) : (l.flatMap f).length ≤ (l'.flatMap f).length := by
  induction h with
  | slnil => simp
  | cons a _ ih => simp only [List.flatMap_cons, List.length_append]; omega
  | cons_cons a _ ih => simp only [List.flatMap_cons, List.length_append]; omega

theorem asked_sublist (ps : List (Point K)) (i t q : Nat) : (asked ps i t q).Sublist ps := List.filter_sublist.trans List.filter_sublist

theorem demo_fits : RepliesFit demoEnv demoPoints := by
  constructor
  · intro s i t q
    have h1 := sublist_flatMap (asked_sublist demoPoints i t q) (answerOf demoEnv s)
    have h2 : (demoPoints.flatMap (answerOf demoEnv s)).length ≤ 100 := by
      simp [demoPoints, answerOf, recordOf, render, flpStat, elStat, mapRows, demoEnv, Function.comp_def]
      decide +kernel
    omega
  · intro b l names hn
    subst hn
    have : ((filesToSend (demoEnv.disk b l) [] ((ofInstant .final demoPoints ++ ofInstant .slot demoPoints ++ ofInstant .step demoPoints).map
      (fun p => bytesOf p.file))).flatMap (fileRecord (demoEnv.disk b l))).length = 5 := by
      have hd : demoEnv.disk b l = fun n => if n = bytesOf "map.txt" then some [49, 10] else none := rfl
      rw [hd]
      decide +kernel
    omega

/-- Non-vacuity: a client asks for the number of floorplan elements, inserts powers, asks for the slot output of type Tflp, resets, sends a list of powers that is
too short and asks for another slot. The server sends three replies and gives up at the fifth request. -/
example (sched : List ReadEv) (hev : ∀ ev ∈ sched, ev ≠ .err) (hd : 200 ≤ dataCount sched) :
    ∃ msgs fin, Serve demoEnv sched (sent [.total, .insert [8, 9], .output 2 2 2, .reset, .insert [1], .slot]) demoState msgs fin ∧
      ∃ m1 m2 m3 s', msgs = [m1, m2, m3] ∧ fin = .error s' ∧ Holds m1 4 [2] ∧ Holds m2 5 [0] ∧ extract m3 1 = .ok 1 := by
  have hv : ∀ r ∈ ([.total, .insert [8, 9], .output 2 2 2, .reset, .insert [1], .slot] : List Request), r.Valid := by
    intro r hr
    fin_cases hr <;> simp [Request.Valid, Request.words, Request.type, IsWord]
  obtain ⟨msgs, fin, h1⟩ := C34_never_stuck demo_launched (by decide +kernel) (by decide) demo_fits hv hev
  refine ⟨msgs, fin, h1, ?_⟩
  obtain ⟨reps, h2, h3, h4⟩ := C34_answers_in_order_partial demo_launched (by decide +kernel) (by decide) hv hev h1
  have hnw : ∀ s', fin ≠ .waiting s' := by
    intro s' hh
    have := h4 s' hh
    have h5 : (sent [.total, .insert [8, 9], .output 2 2 2, .reset, .insert [1], .slot]).length = 80 := by decide +kernel
    omega
  cases h3 with
  | waits => exact absurd rfl (hnw _)
  | quits a => obtain ⟨-, a⟩ := a; cases a
  | fails a => obtain ⟨-, a⟩ := a; cases a
  | next a h3 =>
    obtain ⟨rfl, a⟩ := a
    cases a
    cases h3 with
    | waits => exact absurd rfl (hnw _)
    | quits a => simp [Answers, demoState, demo_elements] at a
    | fails a => simp [Answers, demoState, demo_elements] at a
    | @next _ _ _ rep2 s2 reps2 _ a h3 =>
      simp only [Answers, demoState, demo_elements, List.length_cons, List.length_nil, Nat.reduceAdd, le_refl, if_true] at a
      obtain ⟨rfl, sim2, a, b, c⟩ := a
      cases a
      cases h3 with
      | waits => exact absurd rfl (hnw _)
      | quits a => obtain ⟨-, a⟩ := a; cases a
      | fails a => obtain ⟨-, a⟩ := a; cases a
      | next a h3 =>
        obtain ⟨rfl, a⟩ := a
        cases a
        cases h3 with
        | waits => exact absurd rfl (hnw _)
        | quits a => obtain ⟨-, a⟩ := a; cases a
        | fails a => obtain ⟨-, a⟩ := a; cases a
        | next a h3 =>
          obtain ⟨rfl, a⟩ := a
          cases a
          have hlen : (elements (Emu.reset demoEnv.cfg sim2)).length = 2 := by
            have := congrArg List.length c
            simpa [traces, demo_elements, elements, Emu.reset, demoSim] using this
          cases h3 with
          | waits => exact absurd rfl (hnw _)
          | quits a => simp [Answers, hlen] at a
          | next a h3 => simp [Answers, hlen] at a
          | @fails _ _ _ rep5 s5 a =>
            simp only [Answers, hlen, List.length_cons, List.length_nil] at a
            simp at a
            obtain ⟨rfl, -⟩ := a
            have h5 : (asked demoPoints 2 2 2).length = 1 := by decide +kernel
            simp only [Option.toList_some, Option.toList_none, List.map_cons, List.map_nil, List.cons_append, List.nil_append] at h2
            cases h2 with
            | cons x1 h2 =>
              cases h2 with
              | cons x2 h2 =>
                cases h2 with
                | cons x3 h2 =>
                  cases h2
                  refine ⟨_, _, _, _, rfl, rfl, x1, x2, ?_⟩
                  have := Net.extract_spec x3 1 _ rfl
                  rw [h5] at this
                  exact this

/-- Non-vacuity of the deviations: a request of the slot output, and one value for two elements. -/
example : ∃ m rep n, Holds m 2 [2, 4, 0] ∧ Handles demoEnv demoState m (some rep) n ∧ extract rep 0 = .ok 0 ∧ extract rep 1 = .ok 1 := by
  obtain ⟨m, -, hm⟩ := Net.buildMessage_holds 2 [2, 4, 0] (by simp)
  have hv : (Request.output 2 4 0).Valid := by simp [Request.Valid, Request.words, Request.type, IsWord]
  have hs := demo_launched.serving (by decide +kernel)
  obtain ⟨rep, n, h⟩ := handles_total hs (by decide) demo_fits hv hm
  obtain ⟨ws, c1, ⟨c2, -⟩, -⟩ := handles_answers hs (by decide) hv hm h
  subst c2
  cases rep with
  | none => exact c1.elim
  | some rep =>
    obtain ⟨h1, h2⟩ := C34_output_word_zero_violated demo_launched (by decide +kernel) (by decide) hv hm h
    refine ⟨m, rep, n, hm, h, ?_, ?_⟩
    · rw [h1]
      have : demoState.sim.time = 0 := rfl
      rw [this]
      simp [demoEnv]
    · rw [h2]
      have h5 : (asked demoPoints 2 4 0).length = 1 := by decide +kernel
      rw [h5]

example : ∃ m rep n, Holds m 5 [1, 7] ∧ Handles demoEnv demoState m rep n ∧ rep = none ∧ ∃ s', n = .error s' := by
  obtain ⟨m, -, hm⟩ := Net.buildMessage_holds 5 [1, 7] (by simp)
  have hv : (Request.insert [7]).Valid := by simp [Request.Valid, Request.words, Request.type, IsWord]
  have hs := demo_launched.serving (by decide +kernel)
  obtain ⟨rep, n, h⟩ := handles_total hs (by decide) demo_fits hv hm
  exact ⟨m, rep, n, hm, h, C34_insert_failure_violated demo_launched (by decide +kernel) (by decide) hv (by decide +kernel) hm h⟩

/-! ### A client that dies while it sends a request -/

/-- **C34 is violated** (truncated request): the result of `receive_message_from_socket` is ignored (bin/3D-ICE-Server.c:341-345). If the client dies after the
type word and the count of a power insertion, the server inserts a zero for every missing value and answers, before it notices that the client
is gone. -/
theorem C34_truncated_request_executed_violated :
    ∃ m s', Serve demoEnv [.data 99, .data 99, .data 99, .data 99] ((Request.insert [8, 9]).wire.take 12) demoState [m] (.quit s') ∧ Holds m 5 [0] ∧
      traces s'.sim = [[1, 2, 0], [4, 0]] := by
  have h1 : receive [.data 99, .data 99, .data 99, .data 99] ((Request.insert [8, 9]).wire.take 12) Net.init =
      some ⟨.failure, ⟨5 :: 5 :: 2 :: List.replicate 253 0, 256⟩, [], [.data 99]⟩ := by decide +kernel
  have hx : ∀ i, i < 254 → extract ⟨5 :: 5 :: 2 :: List.replicate 253 0, 256⟩ i = .ok (if i = 0 then 2 else 0) := by decide +kernel
  have h2 : receive [.data 99] [] Net.init = some ⟨.failure, Net.init, [], []⟩ := by decide +kernel
  obtain ⟨m, h3, h4⟩ := Net.buildMessage_holds 5 [0] (by simp)
  obtain ⟨c1, -⟩ := C35_inserted_in_order (demo_launched.serving (by decide +kernel)).reachable [0, 0]
  obtain ⟨c1, c2⟩ := c1 (by simp [demoState, demo_elements])
  have hex : Extracted demoEnv ⟨5 :: 5 :: 2 :: List.replicate 253 0, 256⟩ 2 [0, 0] := by
    refine ⟨rfl, fun i hi => Or.inl ⟨0, ?_, ?_⟩⟩
    · rw [hx _ (by omega)]; simp
    · have : i = 0 ∨ i = 1 := by omega
      rcases this with rfl | rfl <;> rfl
  refine ⟨m, ⟨(insertPowerValues demoState.sim [0, 0]).1, false, []⟩, ?_, h4, ?_⟩
  · have := Serve.next (e := demoEnv) (s := demoState) h1 (by simp)
      (.insert (r := m) (vs := [0, 0]) rfl (hx 0 (by omega)) hex (Prod.ext rfl c1) h3)
      (.quit h2 (by simp) (.exit typeWord_init))
    exact this
  · rw [c2]; rfl

end Verif.Srv
