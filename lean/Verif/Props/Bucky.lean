import Verif.Lemmas.BuckyTable
import Verif.Lemmas.DedupNum
import Verif.Spec.Distance

/-! # C59–C61: the buckyball -/

namespace Verif

/-! ## C59: the table is a group -/

/-- **C59.** The table has 120 rows, all different; every row is a permutation of the 60 sites; the identity is a row; the
composition of two rows is a row; every row has its inverse among the rows. -/
theorem C59_group : buckyPermTable.length = 120 ∧ buckyPermTable.Nodup ∧ (∀ p ∈ buckyPermTable, p.Perm (List.range 60)) ∧
    List.range 60 ∈ buckyPermTable ∧
    (∀ p ∈ buckyPermTable, ∀ q ∈ buckyPermTable, ∃ r ∈ buckyPermTable, ∀ (i j k : ℕ), q[i]? = some j → p[j]? = some k → r[i]? = some k) ∧
    (∀ p ∈ buckyPermTable, ∃ q ∈ buckyPermTable, ∀ (i j : ℕ), p[i]? = some j ↔ q[j]? = some i) := by
  have hG := bucky_group
  refine ⟨?_, ?_, hG.perm, hG.one, ?_, ?_⟩
  · rw [bucky_codes, List.length_map, bucky_small.2.1]
  · rw [bucky_codes]
    refine List.Nodup.map_on ?_ bucky_codes_nodup
    intro c hc d hd h
    have hcode := bucky_code_dec
    rw [List.all_eq_true] at hcode
    have h1 := hcode c hc
    have h2 := hcode d hd
    rw [beq_iff_eq] at h1 h2
    rw [← h1, ← h2, h]
  · intro p hp q hq
    have hpl := (hG.perm p hp).length
    refine ⟨gather p q, hG.mul p hp q hq, ?_⟩
    intro i j k hij hjk
    rw [gather_getElem? (by rw [hpl]; exact (hG.perm q hq).lt), hij]
    exact hjk
  · intro p hp
    have hpl := (hG.perm p hp).length
    obtain ⟨q, hq, h⟩ := hG.inv p hp
    have hqp := hG.perm q hq
    -- q[j] = i gives p[i] = j
    have hdir : ∀ (i j : ℕ), q[j]? = some i → p[i]? = some j := by
      intro i j hj
      have := gather_getElem? (xs := p) (p := q) (by rw [hpl]; exact hqp.lt) j
      rw [h, hj, Option.bind_some] at this
      have hj60 : j < 60 := by rw [← hqp.length]; exact (List.getElem?_eq_some_iff.1 hj).1
      rw [← this, List.getElem?_range hj60]
    refine ⟨q, hq, fun i j => ⟨fun hij => ?_, hdir i j⟩⟩
    have hj60 : j < 60 := (hG.perm p hp).lt j (List.mem_of_getElem? hij)
    have hj : j < q.length := by rw [hqp.length]; exact hj60
    have hq' := List.getElem?_eq_getElem hj
    have := hdir _ _ hq'
    rw [hq', Option.some.injEq]
    exact (List.getElem?_inj (List.getElem?_eq_some_iff.1 this).1 (hG.perm p hp).nodup).1 (this.trans hij.symm)

/-! ## C60: the table and the molecule -/

/-- sites in units of 1e-9 of the cell edge -/
def nanoQ (p : ℕ × ℕ × ℕ) : V3 ℚ := ((p.1 : ℚ) / 10 ^ 9, (p.2.1 : ℚ) / 10 ^ 9, (p.2.2 : ℚ) / 10 ^ 9)

set_option maxRecDepth 100000 in
theorem bucky_sorted : fancy buckyPositionsNano (lexsort3 (buckyFilePositions.map buckyKey)) = .ok buckySortedNano := by decide +kernel

/-- what the constructor builds: the sorted site list, the numbers as given, the table -/
theorem bucky_new (ns : List ℤ) : Bucky.new ns = .ok ⟨buckySortedNano.map nanoQ, ns, buckyPermTable⟩ := by
  unfold Bucky.new
  have := fancy_map nanoQ bucky_sorted
  have e : fancy buckyFilePositions (lexsort3 (buckyFilePositions.map buckyKey)) = .ok (buckySortedNano.map nanoQ) := this
  simp only [e, bind, Except.bind, pure, Except.pure]

/-- squared distance in units of 1e-18 -/
def sqN (a b : ℕ × ℕ × ℕ) : ℕ :=
  (a.1 * a.1 + b.1 * b.1 - 2 * a.1 * b.1) + (a.2.1 * a.2.1 + b.2.1 * b.2.1 - 2 * a.2.1 * b.2.1) +
  (a.2.2 * a.2.2 + b.2.2 * b.2.2 - 2 * a.2.2 * b.2.2)

theorem sq_sub_cast (a b : ℕ) : ((a * a + b * b - 2 * a * b : ℕ) : ℚ) = ((a : ℚ) - b) ^ 2 := by
  have h : 2 * a * b ≤ a * a + b * b := by
    zify
    nlinarith [sq_nonneg ((a : ℤ) - b)]
  rw [Nat.cast_sub h]
  push_cast
  ring

theorem distSq_nano (a b : ℕ × ℕ × ℕ) : Spec.distSq (nanoQ a) (nanoQ b) = (sqN a b : ℚ) / 10 ^ 18 := by
  unfold Spec.distSq nanoQ sqN
  push_cast [sq_sub_cast]
  ring

/-- the relabelled sites -/
def buckySites : List (ℕ × ℕ × ℕ) := buckyRelabel.map fun k => buckySortedNano.getD k (0, 0, 0)

/-- the shell of every pair of relabelled sites, one coded row per site -/
def buckyShellCodes : List ℕ :=
  [710584396701525337447350673058202529582082860617843082326538570632767858211710475442141898322142263333884160,
   855074398268926289445542243481294671149258677998972580978173183889320597046647916499709512411872577069260804,
   783393741031989710739351580255060427666881614987526371292119567490959017931967176486844157289022112541180033,
   708326880409938791412403631041828775751540512513042130439819263994367408317176448278390154190269026110820612,
   672768828527920771222360759970321224387640681243807688013350588321745749956718291830608127881798142166057282,
   817823105820479936343584207355944324428359753279138097803023300585097975299789858051089238906481444190175301,
   562080356772348324923105188271784259169979512424006859384616562382336677547355746386188463414402053963801091,
   633196460535842155246982809406162655035772451802689808098179740308665771801012397884371454420264111315648903,
   599331649219734895831946946282075973889907414651052745527183163389923225208284693212130194127419489482457538,
   744950337880671857781543994421768017109840679069755040245319739298867349433111632809168912591621474966577348,
   706005804865780618844145602310108116047580522632507775910235051666419634619730188879868913065682638587326728,
   780508389762139326284371481071896932944381308782926480796286461974596646463675140810725740547194804982526086,
   525366316598961873515892126473335600170603067965798878881736169248982416748080660753826680988992106074235459,
   632040472244999250824013981699613951064521945217509938455263555784344972182939725629788465728429400150282633,
   743794349589286743271035801332441345791613321623718675405107561514268641164221472360409700653707267024367814,
   634262003920835158211087595067694267081593336368430425988188014186473499155915993865879805031932085855338885,
   667562261763507623869787795646835812811043141862846845278451375377900565237522600201004116100608432310616395,
   561452659590362441220224945023057080546576776926950208605020817387578221179234968748116987013613634812662276,
   485821109852725529026656950967895065921513663890065123084508720070877637927122874753280370811715691702432392,
   450263057971241375225291821980241099652660213810858899023955324650184218661863011189535515183922965497815750,
   704813554211953974966538542567470488749302355923275633141011570763197570013245632953550308353163019985903882,
   482362243944288639380567107098389199205267975076401085051987354451949056952716477207456432580747842853331598,
   340130036415699377530255523037320812661258694709093663092757374719428157919664411720645354968351860064822150,
   631367413737014273605697551953014400508006327121304301275052416533944302730750412307058182621197527498121610,
   412912359484376082884308289476836789011314224757131627091578152473107184280830995436708272574887947367121671,
   301731716809513936767792641396366787662938738850945426950285509095368880194260862657589313436762224166233033,
   336716396224776824268483890110415545701039234266801064462039097988105567406583879350722316007717795637556108,
   522417541685567092461741932017060071277910834168026472225083532526556689092851449055317106841884166289388104,
   555153386007345461819029475557250620604044077910477709762396423818710626442737621815723000097104629867004431,
   592395719510481326178510219703785354341020748007569489964218427940104218315080617053031854115731004239942094,
   334986893295356149466163682683809002208449461465169671049006822159805335948989728717144432250967899896873871,
   302251048973577780108876139143618452882316217722718433511693930867651398599103555956738538995747436319257544,
   444492075496547159043597325224032284475046070876064516182512202213254840761010182335753266517964118819140304,
   265008715470441915749395394997083719145339547625626653309871926746257806726760560719429684977121061946319881,
   520688038756146417659421724590453527785321061366395078812051256698256457635257298421739223085134270548705867,
   555672718171409305160112973304502285823421556782250716323804845590993144847580315114872225656089842020028942,
   375042191036634602547338507602479874281092320556795058222103000234412968089124700565005106512104223332930377,
   226037021243908968322208062747854672978353968511891841999037938152417722311090765465403356471654538688140365,
   517274398565223864397650091663548260825101600924102480181332979966933867122176766051816184124500206121439825,
   295951775390560800707680669677811992939783518706245934669069537298783803862606209024344552079238431373599699,
   152590880768969266961367072133398584737057939709920510133078783923164455028595544818911230739689046200358093,
   223142431060088083716818019633174806404766959264765717285902340499888525885925183906581734060919980330923090,
   407141377009681866702613792720627973833700081822337244250135030036177806379978166582926023908929100688446225,
   189842173217415618058117819054033260675317153770349297995638979308461459804318577571457422992243633875645580,
   371583325128197712901248663732974007564846631743131020189581634615484387114718303019181168281136374483829583,
   225363962735923991103891633001255122421838350415686204818826798902017052858901452142673073364422666035979342,
   113610085391636498656869813368427727694746974009477467868982793172093383877619705412051838439144799161894161,
   332038118381961368412013488227533473315757227667397264392354185437379608293760517018634858103859960112026516,
   258072785761188346095958668418793099596452880982143397746907191296438799833556484560331344965432576703804437,
   76896045218783915643534133628972140541978986850269662477803892711765378578166036961735798545657261203735889,
   151398630115142623083760012390760957438779773000688367363855303019942390422110988892592626027169427598935247,
   224207974445081086680922805294706418450587843830506335175910614377696253240828779888090084672587954870613072,
   112454097100251384146361620279101056376519616563441103028770615387494675608729544963292626501230591219684627,
   295324078208574917004800426429084814316380783209189283889473792304025347494485431386273075678450012222460884,
   74010693948933531188554034445808645819478680645669771981970787195403007109874001285617381803829953645081942,
   39581329160443305584321407344924749058000542354058045471067054101264049742051319721372300186370621996086674,
   184635606453002470705544854730547849098719614389388455260739766364616275085122885941853411211053924020204693,
   149077554570984450515501983659040297734819783120154012834271090691994616724664729494071384902583040075441363,
   146820038279397904480554941642666543904277435015353060947551784053594166830130702330319640770709802852377815,
   2330036711996952482363371219574402337101617634223562295917170797041427995193261272752026680979489117001171]

/-- lower end of shell `k` (shell 0: a site and itself) -/
def shellLo (k : ℕ) : ℕ := (0 :: buckyShells).getD k 0

set_option maxRecDepth 100000 in
theorem shell_width : ((buckySites.zip buckyShellCodes).all fun ar => (buckySites.zipIdx).all fun bj =>
    Nat.ble (shellLo (look ar.2 bj.2)) (sqN ar.1 bj.1) && Nat.ble (sqN ar.1 bj.1) (shellLo (look ar.2 bj.2) + 800000000000000) &&
    (Nat.ble 40000000000000000 (sqN ar.1 bj.1) == Nat.ble 3 (look ar.2 bj.2))) = true := by decide +kernel

/-- invariance of the shells under a coded row -/
def shellInv (c : ℕ) : Bool := (List.range 60).all fun i => (List.range 60).all fun j =>
  look (buckyShellCodes.getD (look c i) 0) (look c j) == look (buckyShellCodes.getD i 0) j

set_option maxRecDepth 100000 in
theorem shell_inv_gens : shellInv (buckyCodes.getD 1 0) = true ∧ shellInv (buckyCodes.getD 65 0) = true := by decide +kernel

set_option maxRecDepth 100000 in
theorem relabel_perm : buckyRelabel.length = 60 ∧ ((List.range 60).all fun i => buckyRelabel.contains i) = true ∧ buckySortedNano.length = 60 := by
  decide +kernel

set_option maxRecDepth 100000 in
theorem bonds_broken : (((List.range 119).zip buckyBroken).all fun kw =>
    decide (sqN (buckySortedNano.getD kw.2.1 (0, 0, 0)) (buckySortedNano.getD kw.2.2 (0, 0, 0)) < 4 * 10 ^ 16) &&
    decide (4 * 10 ^ 16 ≤ sqN (buckySortedNano.getD (look (buckyCodes.getD (kw.1 + 1) 0) kw.2.1) (0, 0, 0))
      (buckySortedNano.getD (look (buckyCodes.getD (kw.1 + 1) 0) kw.2.2) (0, 0, 0))) && decide (kw.2.1 < 60) && decide (kw.2.2 < 60)) = true ∧
    buckyBroken.length = 119 := by decide +kernel

/-- the shell of a pair of relabelled sites -/
def shellOf (i j : ℕ) : ℕ := look (buckyShellCodes.getD i 0) j

/-- a row leaves the shells alone -/
def Pres (p : List ℕ) : Prop := ∀ (i j i' j' : ℕ), p[i]? = some i' → p[j]? = some j' → shellOf i' j' = shellOf i j

theorem decRow_getElem? {c i : ℕ} (hi : i < 60) : (decRow c)[i]? = some (look c i) := by simp [decRow, hi]

theorem pres_of_inv {c : ℕ} (h : shellInv c = true) : Pres (decRow c) := by
  intro i j i' j' hi hj
  have hi60 : i < 60 := by simpa [decRow] using (List.getElem?_eq_some_iff.1 hi).1
  have hj60 : j < 60 := by simpa [decRow] using (List.getElem?_eq_some_iff.1 hj).1
  rw [decRow_getElem? hi60, Option.some.injEq] at hi
  rw [decRow_getElem? hj60, Option.some.injEq] at hj
  unfold shellInv at h
  rw [List.all_eq_true] at h
  have h1 := h i (List.mem_range.2 hi60)
  rw [List.all_eq_true] at h1
  have h2 := beq_iff_eq.1 (h1 j (List.mem_range.2 hj60))
  rw [← hi, ← hj]
  exact h2

theorem pres_gen (b : Bool) : Pres (buckyGen b) := by
  cases b
  · exact pres_of_inv shell_inv_gens.1
  · exact pres_of_inv shell_inv_gens.2

theorem pres_gather {p q : List ℕ} (hq60 : ∀ i ∈ q, i < p.length) (hp : Pres p) (hq : Pres q) : Pres (gather p q) := by
  intro i j i' j' hi hj
  rw [gather_getElem? hq60] at hi hj
  obtain ⟨a, ha, hi⟩ := Option.bind_eq_some_iff.1 hi
  obtain ⟨b, hb, hj⟩ := Option.bind_eq_some_iff.1 hj
  rw [hp a b i' j' hi hj, hq i j a b ha hb]

theorem pres_range : Pres (List.range 60) := by
  intro i j i' j' hi hj
  have hi60 : i < 60 := by simpa using (List.getElem?_eq_some_iff.1 hi).1
  have hj60 : j < 60 := by simpa using (List.getElem?_eq_some_iff.1 hj).1
  rw [List.getElem?_range hi60, Option.some.injEq] at hi
  rw [List.getElem?_range hj60, Option.some.injEq] at hj
  rw [hi, hj]

theorem pres_word (w : List Bool) : ∀ p : List ℕ, p.length = 60 → Pres p → Pres (w.foldl (fun p b => gather p (buckyGen b)) p) := by
  induction w with
  | nil => intro p _ h; exact h
  | cons b w ih =>
    intro p hl h
    have hlt : ∀ i ∈ buckyGen b, i < p.length := by rw [hl]; exact buckyGen_lt b
    refine ih _ ?_ (pres_gather hlt h (pres_gen b))
    rw [gather_length hlt]
    cases b
    · exact buckyRow_length 1
    · exact buckyRow_length 65

theorem pres_table {p : List ℕ} (hp : p ∈ buckyPermTable) : Pres p := by
  obtain ⟨k, hk, rfl⟩ := (mem_table_iff p).1 hp
  have : k ∈ buckyWords.map wordIdx := by rw [bucky_words]; exact List.mem_range.2 hk
  obtain ⟨w, _, rfl⟩ := List.mem_map.1 this
  have h0 := row_word w 0 (by omega)
  rw [show buckyRow (wordIdx w) = _ from h0.1.symm]
  exact pres_word w _ (buckyRow_length 0) (by rw [row_zero]; exact pres_range)

theorem relabel_isPerm : IsPerm 60 buckyRelabel := by
  obtain ⟨h1, h2, _⟩ := relabel_perm
  have hsub : List.range 60 ⊆ buckyRelabel := by
    intro i hi
    rw [List.all_eq_true] at h2
    simpa using h2 i hi
  have : (List.range 60).Subperm buckyRelabel := List.nodup_range.subperm hsub
  exact (this.perm_of_length_le (by rw [h1, List.length_range])).symm

/-- distance of relabelled sites, by shell -/
theorem shell_bounds {i j k l : ℕ} {x y : V3 ℚ} (hi : buckyRelabel[i]? = some k) (hj : buckyRelabel[j]? = some l)
    (hx : (buckySortedNano.map nanoQ)[k]? = some x) (hy : (buckySortedNano.map nanoQ)[l]? = some y) :
    (shellLo (shellOf i j) : ℚ) / 10 ^ 18 ≤ Spec.distSq x y ∧ Spec.distSq x y ≤ (shellLo (shellOf i j) : ℚ) / 10 ^ 18 + 8 / 10 ^ 4 ∧
    (Spec.distSq x y < 1 / 25 ↔ shellOf i j < 3) := by
  rw [List.getElem?_map, Option.map_eq_some_iff] at hx hy
  obtain ⟨a, ha, rfl⟩ := hx
  obtain ⟨b, hb, rfl⟩ := hy
  have hl := relabel_perm.1
  have hi60 : i < 60 := by rw [← hl]; exact (List.getElem?_eq_some_iff.1 hi).1
  have hj60 : j < 60 := by rw [← hl]; exact (List.getElem?_eq_some_iff.1 hj).1
  have ea : buckySites[i]? = some a := by
    unfold buckySites
    rw [List.getElem?_map, hi, Option.map_some, List.getD_eq_getElem?_getD, ha]; rfl
  have eb : buckySites[j]? = some b := by
    unfold buckySites
    rw [List.getElem?_map, hj, Option.map_some, List.getD_eq_getElem?_getD, hb]; rfl
  have hcl : buckyShellCodes.length = 60 := by decide
  have h := shell_width
  rw [List.all_eq_true] at h
  have h1 := h (a, buckyShellCodes.getD i 0) (by
    rw [List.mem_iff_getElem?]
    refine ⟨i, ?_⟩
    rw [List.getElem?_zip_eq_some]
    refine ⟨ea, ?_⟩
    rw [List.getD_eq_getElem _ _ (by omega), List.getElem?_eq_getElem (by omega)])
  rw [List.all_eq_true] at h1
  have h2 := h1 (b, j) (by rw [List.mem_zipIdx_iff_getElem?]; exact eb)
  rw [Bool.and_eq_true, Bool.and_eq_true, beq_iff_eq, Nat.ble_eq, Nat.ble_eq] at h2
  obtain ⟨⟨h2, h3⟩, h4⟩ := h2
  change shellLo (shellOf i j) ≤ sqN a b at h2
  change sqN a b ≤ shellLo (shellOf i j) + 800000000000000 at h3
  change Nat.ble 40000000000000000 (sqN a b) = Nat.ble 3 (shellOf i j) at h4
  rw [distSq_nano]
  refine ⟨?_, ?_, ?_⟩
  · rw [div_le_div_iff_of_pos_right (by positivity)]
    exact_mod_cast h2
  · have : (sqN a b : ℚ) ≤ (shellLo (shellOf i j) : ℚ) + 800000000000000 := by exact_mod_cast h3
    rw [div_add' _ _ _ (by norm_num), div_le_div_iff_of_pos_right (by positivity)]
    linarith
  · rw [div_lt_div_iff₀ (by positivity) (by norm_num)]
    have e : (sqN a b : ℚ) * 25 < 1 * 10 ^ 18 ↔ sqN a b < 40000000000000000 := by
      constructor
      · intro h
        have : ((sqN a b * 25 : ℕ) : ℚ) < ((1000000000000000000 : ℕ) : ℚ) := by push_cast; linarith
        have := Nat.cast_lt.1 this
        omega
      · intro h
        have : ((sqN a b * 25 : ℕ) : ℚ) < ((1000000000000000000 : ℕ) : ℚ) := by
          rw [Nat.cast_lt]; omega
        push_cast at this
        linarith
    rw [e, ← not_le, ← not_le, ← Nat.ble_eq, ← Nat.ble_eq, h4]

/-- **C60 (the part that holds).** There is a relabelling `s` of the 60 sites (the same for all rows) after which every row is a
symmetry of the molecule: squared distances (in units of the cell edge) of all pairs of sites are kept within `0.0008`, and bonded
pairs (closer than `0.2` edges) go to bonded pairs. The stored order is not that order, see `C60_false`. -/
theorem C60_relabelled_partial : ∃ s : List ℕ, s.Perm (List.range 60) ∧ ∀ (ns : List ℤ) (b : Bucky), Bucky.new ns = .ok b →
    ∀ p ∈ b.symPerm, ∀ (i j i' j' k l k' l' : ℕ) (x y x' y' : V3 ℚ), p[i]? = some i' → p[j]? = some j' →
      s[i]? = some k → s[j]? = some l → s[i']? = some k' → s[j']? = some l' →
      b.positions[k]? = some x → b.positions[l]? = some y → b.positions[k']? = some x' → b.positions[l']? = some y' →
      |Spec.distSq x' y' - Spec.distSq x y| ≤ 8 / 10 ^ 4 ∧ (Spec.distSq x' y' < 1 / 25 ↔ Spec.distSq x y < 1 / 25) := by
  refine ⟨buckyRelabel, relabel_isPerm, ?_⟩
  intro ns b hb p hp i j i' j' k l k' l' x y x' y' hi hj hk hl hk' hl' hx hy hx' hy'
  rw [bucky_new] at hb
  injection hb with hb
  subst hb
  obtain ⟨a1, a2, a3⟩ := shell_bounds hk hl hx hy
  obtain ⟨b1, b2, b3⟩ := shell_bounds hk' hl' hx' hy'
  rw [pres_table hp i j i' j' hi hj] at b1 b2 b3
  exact ⟨abs_le.2 ⟨by linarith, by linarith⟩, b3.trans a3.symm⟩

/-- **C60 fails for the stored order**: every row of the table except the identity takes some bonded pair of sites (closer than
`0.2` cell edges) to a pair that is not bonded. -/
theorem C60_false (ns : List ℤ) : ∃ b, Bucky.new ns = .ok b ∧ ∀ p ∈ b.symPerm, p ≠ List.range 60 →
    ∃ (i j i' j' : ℕ) (x y x' y' : V3 ℚ), p[i]? = some i' ∧ p[j]? = some j' ∧
      b.positions[i]? = some x ∧ b.positions[j]? = some y ∧ b.positions[i']? = some x' ∧ b.positions[j']? = some y' ∧
      Spec.distSq x y < 1 / 25 ∧ 1 / 25 ≤ Spec.distSq x' y' := by
  refine ⟨_, bucky_new ns, ?_⟩
  intro p hp hne
  obtain ⟨m, hm, rfl⟩ := (mem_table_iff p).1 hp
  have hm0 : m ≠ 0 := by rintro rfl; exact hne row_zero
  obtain ⟨m, rfl⟩ := Nat.exists_eq_succ_of_ne_zero hm0
  obtain ⟨h, hlen⟩ := bonds_broken
  rw [List.all_eq_true] at h
  have hmem := h (m, buckyBroken[m]'(by omega)) (by
    rw [List.mem_iff_getElem?]
    refine ⟨m, ?_⟩
    rw [List.getElem?_zip_eq_some]
    exact ⟨List.getElem?_range (by omega), List.getElem?_eq_getElem _⟩)
  generalize buckyBroken[m]'(by omega) = w at hmem
  obtain ⟨i, j⟩ := w
  simp only [Bool.and_eq_true, decide_eq_true_iff] at hmem
  obtain ⟨⟨⟨h1, h2⟩, h3⟩, h4⟩ := hmem
  have hrow : ∀ i, i < 60 → (buckyRow (m + 1))[i]? = some (look (buckyCodes.getD (m + 1) 0) i) := fun i hi => decRow_getElem? hi
  have hS := relabel_perm.2.2
  have hpos : ∀ i, i < 60 → (buckySortedNano.map nanoQ)[i]? = some (nanoQ (buckySortedNano.getD i (0, 0, 0))) := by
    intro i hi
    rw [List.getElem?_map, List.getElem?_eq_getElem (by omega), List.getD_eq_getElem _ _ (by omega)]; rfl
  have hlt : ∀ i, i < 60 → look (buckyCodes.getD (m + 1) 0) i < 60 := fun i hi =>
    buckyRow_lt hm _ (List.mem_of_getElem? (hrow i hi))
  refine ⟨i, j, _, _, _, _, _, _, hrow i h3, hrow j h4, hpos i h3, hpos j h4, hpos _ (hlt i h3), hpos _ (hlt j h4), ?_, ?_⟩
  · rw [distSq_nano, div_lt_div_iff₀ (by positivity) (by norm_num)]
    have : ((sqN (buckySortedNano.getD i (0, 0, 0)) (buckySortedNano.getD j (0, 0, 0)) : ℕ) : ℚ) < ((4 * 10 ^ 16 : ℕ) : ℚ) := Nat.cast_lt.2 h1
    push_cast at this
    linarith
  · rw [distSq_nano, div_le_div_iff₀ (by norm_num) (by positivity)]
    have : ((4 * 10 ^ 16 : ℕ) : ℚ) ≤ ((sqN (buckySortedNano.getD (look (buckyCodes.getD (m + 1) 0) i) (0, 0, 0))
      (buckySortedNano.getD (look (buckyCodes.getD (m + 1) 0) j) (0, 0, 0)) : ℕ) : ℚ) := Nat.cast_le.2 h2
    push_cast at this
    linarith

/-! ## C61: incremental generation -/

/-- the loop over `enumerate(s_atoms)` is a filter and a map, deduplicated by the keys seen -/
theorem buckyAddInner_eq (hash : List ℤ → ℕ) (z : ℤ) (s : List ℤ) (es : List (ℤ × ℕ)) (db : List ℕ) :
    ∃ db', buckyAddInner hash z s es db =
      (dedupL hash (fun m => [hash m]) db ((es.filter fun p => p.1 != z).map fun p => s.set p.2 z), db') ∧
      ∀ rest, dedupL hash (fun m => [hash m]) db (((es.filter fun p => p.1 != z).map fun p => s.set p.2 z) ++ rest) =
        dedupL hash (fun m => [hash m]) db ((es.filter fun p => p.1 != z).map fun p => s.set p.2 z) ++
        dedupL hash (fun m => [hash m]) db' rest := by
  induction es generalizing db with
  | nil => exact ⟨db, rfl, fun _ => rfl⟩
  | cons e es ih =>
    obtain ⟨v, i⟩ := e
    unfold buckyAddInner
    by_cases hv : v = z
    · obtain ⟨db', h1, h2⟩ := ih db
      rw [List.filter_cons_of_neg (by simp [hv])]
      exact ⟨db', by simp only [ne_eq, hv, not_true_eq_false, if_false]; exact h1, h2⟩
    · rw [List.filter_cons_of_pos (by simp [hv]), List.map_cons, if_pos hv]
      by_cases hd : hash (s.set i z) ∈ db
      · obtain ⟨db', h1, h2⟩ := ih db
        refine ⟨db', ?_, fun rest => ?_⟩
        · simp only [hd, if_true]
          rw [h1, dedupL_cons, if_pos hd]
        · rw [List.cons_append, dedupL_cons, dedupL_cons, if_pos hd, if_pos hd]; exact h2 rest
      · obtain ⟨db', h1, h2⟩ := ih (hash (s.set i z) :: db)
        refine ⟨db', ?_, fun rest => ?_⟩
        · simp only [hd, if_false]
          rw [h1, dedupL_cons, if_neg hd]; rfl
        · rw [List.cons_append, dedupL_cons, dedupL_cons, if_neg hd, if_neg hd, List.cons_append]
          congr 1
          exact h2 rest

theorem buckyAddLoop_eq (hash : List ℤ → ℕ) (z : ℤ) (gen : List (List ℤ)) (db : List ℕ) :
    buckyAddLoop hash z gen db = dedupL hash (fun m => [hash m]) db (gen.flatMap (addOneCands (fun _ v => v != z) z)) := by
  induction gen generalizing db with
  | nil => rfl
  | cons s gen ih =>
    obtain ⟨db', h1, h2⟩ := buckyAddInner_eq hash z s s.zipIdx db
    unfold buckyAddLoop
    rw [h1]
    simp only
    rw [ih, List.flatMap_cons, addOneCands, h2]

theorem buckyUpdate_ok (hash : List ℤ → ℕ) (m : List ℤ) (P : List (List ℕ)) (isoset : List ℕ) (hP : ∀ p ∈ P, ∀ i ∈ p, i < m.length) :
    ∃ s, buckyUpdateIsoset hash isoset m P = .ok s ∧ ∀ k, k ∈ s ↔ k ∈ isoNum hash P m ++ isoset := by
  induction P generalizing isoset with
  | nil => exact ⟨isoset, rfl, by simp [isoNum]⟩
  | cons p P ih =>
    unfold buckyUpdateIsoset
    rw [fancy_gather (hP p (by simp))]
    obtain ⟨s, h1, h2⟩ := ih (hash (gather m p) :: isoset) (fun q hq => hP q (List.mem_cons_of_mem _ hq))
    refine ⟨s, h1, fun k => ?_⟩
    rw [h2]; simp [isoNum, or_left_comm]

theorem buckyNodup_eq (hash : List ℤ → ℕ) (P : List (List ℕ)) (seen : List ℕ) (l : List (List ℤ))
    (hP : ∀ m ∈ l, ∀ p ∈ P, ∀ i ∈ p, i < m.length) :
    buckyNodupLoop hash P seen l = .ok (dedupL hash (isoNum hash P) seen l) := by
  induction l generalizing seen with
  | nil => rfl
  | cons m l ih =>
    unfold buckyNodupLoop dedupL
    split
    · exact ih seen (fun d hd => hP d (List.mem_cons_of_mem _ hd))
    · obtain ⟨s, h1, h2⟩ := buckyUpdate_ok hash m P seen (hP m (by simp))
      rw [h1]
      simp only [bind, Except.bind]
      rw [ih s (fun d hd => hP d (List.mem_cons_of_mem _ hd))]
      simp only [pure, Except.pure]
      rw [dedupL_congr_seen _ _ s (isoNum hash P m ++ seen) h2]

/-- decorations of the 60 sites obtained from `base` by turning `k` sites that are not `z` into `z` -/
def MoreSpeckles (base : List ℤ) (z : ℤ) (k : ℕ) : Set (List ℤ) :=
  {m | ∃ S : Finset ℕ, S.card = k ∧ (∀ i ∈ S, ∃ v, base[i]? = some v ∧ v ≠ z) ∧ Spec.Subst base S z m}

theorem more_eq (base : List ℤ) (z : ℤ) (k : ℕ) : MoreSpeckles base z k = SubstSet base (fun _ v => v != z) z k := by
  simp only [MoreSpeckles, SubstSet, bne_iff_ne, ne_eq]

theorem image_rel {a b : List ℤ} (ha : a.length = 60) : Spec.Image buckyPermTable a b ↔ Rel buckyPermTable a b :=
  image_iff_rel fun p hp => by rw [ha]; exact (bucky_group.perm p hp).lt

/-- one level, for every hash: what comes out -/
theorem bucky_step (hash : List ℤ → ℕ) (b : Bucky) (hb : b.symPerm = buckyPermTable) (sp : Specie) {gen : List (List ℤ)} (hl : ∀ m ∈ gen, m.length = 60) :
    b.toNodup hash (buckyAddOne hash gen sp) = .ok (dedupL hash (isoNum hash buckyPermTable) []
      (dedupL hash (fun m => [hash m]) [] (gen.flatMap (addOneCands (fun _ v => v != sp.Z) sp.Z)))) ∧
    ∀ m ∈ dedupL hash (fun m => [hash m]) [] (gen.flatMap (addOneCands (fun _ v => v != sp.Z) sp.Z)),
      m.length = 60 ∧ ∃ r ∈ gen, ∃ i v, r[i]? = some v ∧ v ≠ sp.Z ∧ m = r.set i sp.Z := by
  have hm : ∀ m ∈ dedupL hash (fun m => [hash m]) [] (gen.flatMap (addOneCands (fun _ v => v != sp.Z) sp.Z)),
      m.length = 60 ∧ ∃ r ∈ gen, ∃ i v, r[i]? = some v ∧ v ≠ sp.Z ∧ m = r.set i sp.Z := by
    intro m hm
    obtain ⟨r, hr, hm⟩ := List.mem_flatMap.1 ((dedupL_sublist _ _ _ _).subset hm)
    obtain ⟨i, v, hv, ho, rfl⟩ := (mem_addOneCands _ _ _ _).1 hm
    exact ⟨by rw [List.length_set]; exact hl r hr, r, hr, i, v, hv, by simpa using ho, rfl⟩
  refine ⟨?_, hm⟩
  unfold Bucky.toNodup buckyAddOne
  rw [hb, buckyAddLoop_eq, buckyNodup_eq]
  intro m h p hp
  rw [(hm m h).1]
  exact (bucky_group.perm p hp).lt

/-- levels, for every hash -/
theorem bucky_levels_sound (hash : List ℤ → ℕ) (b : Bucky) (hb : b.symPerm = buckyPermTable) (sp : Specie) (base : List ℤ) (hbase : base.length = 60)
    (K : ℕ) : ∀ (k0 : ℕ) (gen : List (List ℤ)), (∀ m ∈ gen, m ∈ MoreSpeckles base sp.Z k0) →
    ∃ ls, b.levels hash sp K gen = .ok ls ∧ ls.length = K ∧ ∀ (k : ℕ) l, ls[k]? = some l →
      (∀ m ∈ l, m ∈ MoreSpeckles base sp.Z (k0 + k + 1)) ∧
      l.Pairwise (fun m m' => ¬ Spec.Image buckyPermTable m m' ∧ ¬ Spec.Image buckyPermTable m' m) := by
  have hlen : ∀ k, ∀ m ∈ MoreSpeckles base sp.Z k, m.length = 60 := by
    rintro k m ⟨S, _, _, hs⟩; rw [hs.1, hbase]
  induction K with
  | zero => intro k0 gen _; exact ⟨[], rfl, rfl, by simp⟩
  | succ K ih =>
    intro k0 gen hg
    obtain ⟨h1, h2⟩ := bucky_step hash b hb sp (fun m hm => hlen k0 m (hg m hm))
    generalize hcand : dedupL hash (fun m => [hash m]) [] (gen.flatMap (addOneCands (fun _ v => v != sp.Z) sp.Z)) = cand at h1 h2
    have hout : ∀ m ∈ dedupL hash (isoNum hash buckyPermTable) [] cand, m ∈ MoreSpeckles base sp.Z (k0 + 1) := by
      intro m hm
      obtain ⟨_, r, hr, i, v, hv, hne, rfl⟩ := h2 m ((dedupL_sublist _ _ _ _).subset hm)
      have hr := hg r hr
      rw [more_eq] at hr ⊢
      exact substSet_step (by simp) hr hv (by simpa using hne)
    obtain ⟨ls, e1, e2, e3⟩ := ih (k0 + 1) _ hout
    refine ⟨dedupL hash (isoNum hash buckyPermTable) [] cand :: ls, ?_, by simp [e2], ?_⟩
    · unfold Bucky.levels
      simp only [h1, bind, Except.bind, e1]; rfl
    · intro k l hl
      cases k with
      | zero =>
        simp only [List.getElem?_cons_zero, Option.some.injEq] at hl
        subst hl
        refine ⟨hout, ?_⟩
        refine (dedupNum_pairwise hash bucky_group cand (fun m hm => (h2 m hm).1)).imp_of_mem ?_
        intro a c ha hc h
        rwa [image_rel (hlen _ a (hout a ha)), image_rel (hlen _ c (hout c hc))]
      | succ k =>
        rw [List.getElem?_cons_succ] at hl
        have := e3 k l hl
        rwa [show k0 + 1 + k + 1 = k0 + (k + 1) + 1 by omega] at this

/-- **C61, in any case.** For every hash function (32-bit collisions included), every starting decoration of the 60 sites and every
`n_max`: the generation succeeds; the first generator yields the starting decoration alone; generator number `k + 1` only yields
decorations with `k + 1` more `sp` sites, no two of them equivalent under the table. -/
theorem C61_never_equivalent (hash : List ℤ → ℕ) (ns : List ℤ) (hn : ns.length = 60) (nMax : ℕ) (sp : Specie) :
    ∃ b ls, Bucky.new ns = .ok b ∧ b.allSpeckleGen hash nMax sp = .ok ([ns] :: ls) ∧ ls.length = nMax - ns.count sp.Z ∧
      ∀ (k : ℕ) l, ls[k]? = some l → (∀ m ∈ l, m ∈ MoreSpeckles ns sp.Z (k + 1)) ∧
        l.Pairwise (fun m m' => ¬ Spec.Image buckyPermTable m m' ∧ ¬ Spec.Image buckyPermTable m' m) := by
  obtain ⟨ls, h1, h2, h3⟩ := bucky_levels_sound hash ⟨buckySortedNano.map nanoQ, ns, buckyPermTable⟩ rfl sp ns hn (nMax - ns.count sp.Z) 0 [ns]
    (by intro m hm; rw [more_eq, substSet_zero]; exact List.mem_singleton.1 hm)
  refine ⟨_, ls, bucky_new ns, ?_, h2, fun k l hl => ?_⟩
  · unfold Bucky.allSpeckleGen Bucky.getSpeckleNum
    simp only [h1, bind, Except.bind]; rfl
  · have := h3 k l hl
    rwa [Nat.zero_add] at this

/-- **C61, without collisions.** If the hash does not collide on the symmetry images of the decorations of each of the levels
`1 … k + 1`, generator number `k + 1` yields exactly one representative of every class of decorations with `k + 1` more `sp` sites. -/
theorem C61_representatives (hash : List ℤ → ℕ) (ns : List ℤ) (hn : ns.length = 60) (nMax : ℕ) (sp : Specie) :
    ∃ b ls, Bucky.new ns = .ok b ∧ b.allSpeckleGen hash nMax sp = .ok ([ns] :: ls) ∧ ls.length = nMax - ns.count sp.Z ∧
      ∀ (k : ℕ) l, ls[k]? = some l →
        (∀ j ≤ k, Set.InjOn hash {m | ∃ d ∈ MoreSpeckles ns sp.Z (j + 1), Spec.Image buckyPermTable d m}) →
        Spec.Transversal (Spec.Image buckyPermTable) (MoreSpeckles ns sp.Z (k + 1)) l := by
  have hlen : ∀ k, ∀ m ∈ MoreSpeckles ns sp.Z k, m.length = 60 := by
    rintro k m ⟨S, _, _, hs⟩; rw [hs.1, hn]
  have key : ∀ K k0 gen, Spec.Transversal (Rel buckyPermTable) (MoreSpeckles ns sp.Z k0) gen →
      ∃ ls, (⟨buckySortedNano.map nanoQ, ns, buckyPermTable⟩ : Bucky).levels hash sp K gen = .ok ls ∧ ls.length = K ∧
        ∀ (k : ℕ) l, ls[k]? = some l →
          (∀ j ≤ k, Set.InjOn hash {m | ∃ d ∈ MoreSpeckles ns sp.Z (k0 + j + 1), Spec.Image buckyPermTable d m}) →
          Spec.Transversal (Rel buckyPermTable) (MoreSpeckles ns sp.Z (k0 + k + 1)) l := by
    intro K
    induction K with
    | zero => intro k0 gen _; exact ⟨[], rfl, rfl, by simp⟩
    | succ K ih =>
      intro k0 gen ht
      by_cases hinj : Set.InjOn hash {m | ∃ d ∈ MoreSpeckles ns sp.Z (k0 + 1), Spec.Image buckyPermTable d m}
      · obtain ⟨h1, _⟩ := bucky_step hash ⟨buckySortedNano.map nanoQ, ns, buckyPermTable⟩ rfl sp (fun m hm => hlen k0 m (ht.1 m hm))
        have hT : Spec.Transversal (Rel buckyPermTable) (MoreSpeckles ns sp.Z (k0 + 1)) (dedupL hash (isoNum hash buckyPermTable) []
            (dedupL hash (fun m => [hash m]) [] (gen.flatMap (addOneCands (fun _ v => v != sp.Z) sp.Z)))) := by
          rw [more_eq] at ht ⊢
          exact stepNum_transversal (hash := hash) (by simp) bucky_group (by simp) hn (by
            refine hinj.mono ?_
            rintro m ⟨d, hd, hdm⟩
            rw [← more_eq] at hd
            exact ⟨d, hd, (image_rel (hlen _ d hd)).2 hdm⟩) ht
        obtain ⟨ls, e1, e2, e3⟩ := ih (k0 + 1) _ hT
        refine ⟨dedupL hash (isoNum hash buckyPermTable) []
          (dedupL hash (fun m => [hash m]) [] (gen.flatMap (addOneCands (fun _ v => v != sp.Z) sp.Z))) :: ls, ?_, by simp [e2], ?_⟩
        · unfold Bucky.levels
          simp only [h1, bind, Except.bind, e1]; rfl
        · intro k l hl hj
          cases k with
          | zero =>
            simp only [List.getElem?_cons_zero, Option.some.injEq] at hl
            subst hl
            exact hT
          | succ k =>
            rw [List.getElem?_cons_succ] at hl
            rw [show k0 + (k + 1) + 1 = k0 + 1 + k + 1 by omega]
            refine e3 k l hl fun j hjk => ?_
            rw [show k0 + 1 + j + 1 = k0 + (j + 1) + 1 by omega]
            exact hj (j + 1) (by omega)
      · obtain ⟨ls, e1, e2, _⟩ := bucky_levels_sound hash ⟨buckySortedNano.map nanoQ, ns, buckyPermTable⟩ rfl sp ns hn (K + 1) k0 gen ht.1
        exact ⟨ls, e1, e2, fun k l _ hj => absurd (hj 0 (by omega)) hinj⟩
  obtain ⟨ls, h1, h2, h3⟩ := key (nMax - ns.count sp.Z) 0 [ns] (by
    rw [more_eq, substSet_zero]
    refine ⟨by simp, ?_, by simp⟩
    rintro d rfl
    exact ⟨d, by simp, Rel.refl bucky_group hn⟩)
  refine ⟨_, ls, bucky_new ns, ?_, h2, fun k l hl hj => ?_⟩
  · unfold Bucky.allSpeckleGen Bucky.getSpeckleNum
    simp only [h1, bind, Except.bind]; rfl
  · have := h3 k l hl (by simpa only [Nat.zero_add] using hj)
    rw [Nat.zero_add] at this
    exact this.congr fun a ha b _ => (image_rel (hlen _ a ha)).symm

/-! ## C74: direct generation -/

/-- decorations with `noa` speckles on a carbon molecule -/
theorem more_carbon {z : ℤ} (hz : z ≠ 6) (k : ℕ) (m : List ℤ) : m ∈ MoreSpeckles (List.replicate 60 6) z k ↔
    m.length = 60 ∧ (∀ v ∈ m, v = 6 ∨ v = z) ∧ m.count z = k := by
  have hb : ∀ i, i < 60 → (List.replicate 60 (6 : ℤ))[i]? = some 6 := fun i hi => by rw [List.getElem?_replicate, if_pos hi]
  constructor
  · rintro ⟨S, hS, hv, hs⟩
    refine ⟨by rw [hs.1]; simp, ?_, ?_⟩
    · intro v hvm
      obtain ⟨i, hi⟩ := List.mem_iff_getElem?.1 hvm
      have hlt : i < 60 := by have := (List.getElem?_eq_some_iff.1 hi).1; rw [hs.1] at this; simpa using this
      have := hs.2 i (by simpa using hlt)
      rw [hi] at this
      split at this
      · right; simpa using this
      · left; rw [hb i hlt] at this; simpa using this
    · rw [hs.count hv, hS, List.count_replicate, if_neg (by simpa using Ne.symm hz)]; omega
  · rintro ⟨hl, hv, hc⟩
    refine ⟨(Finset.range m.length).filter (fun i => m[i]? = some z), by rw [← count_eq_card, hc], ?_, by simp [hl], ?_⟩
    · intro i hi
      rw [Finset.mem_filter, Finset.mem_range, hl] at hi
      exact ⟨6, hb i hi.1, Ne.symm hz⟩
    · intro i hi
      have hi' : i < 60 := by simpa using hi
      by_cases h : m[i]? = some z
      · rw [if_pos (by rw [Finset.mem_filter, Finset.mem_range, hl]; exact ⟨hi', h⟩), h]
      · rw [if_neg (by rw [Finset.mem_filter]; exact fun h' => h h'.2), hb i hi']
        rw [List.getElem?_eq_getElem (by omega)] at h ⊢
        rcases hv _ (List.getElem_mem (by omega : i < m.length)) with h6 | hz
        · rw [h6]
        · exact absurd (by rw [hz]) h

/-- **C74.** `gen_speckle(sp, noa)` yields every decoration of the 60 sites by carbon and `noa` atoms `sp` exactly once, `60` choose
`noa` in number. -/
theorem C74_gen_speckle (sp : Specie) (hz : sp.Z ≠ 6) (noa : ℕ) :
    (buckyGenSpeckle sp noa).Nodup ∧ (buckyGenSpeckle sp noa).length = Nat.choose 60 noa ∧
    ∀ m, m ∈ buckyGenSpeckle sp noa ↔ m.length = 60 ∧ (∀ v ∈ m, v = 6 ∨ v = sp.Z) ∧ m.count sp.Z = noa := by
  obtain ⟨h1, h2⟩ := combinations_subsets (List.range 60) List.nodup_range noa
  have hb : ∀ i, i < 60 → (List.replicate 60 (6 : ℤ))[i]? = some 6 := fun i hi => by rw [List.getElem?_replicate, if_pos hi]
  refine ⟨?_, ?_, ?_⟩
  · refine List.Nodup.map_on ?_ (nodup_combinations _ List.nodup_range noa)
    intro a ha b hb' hab
    rw [List.Nodup, List.pairwise_map] at h1
    have ha1 := ((mem_combinations _ _ _).1 ha).1
    have hb1 := ((mem_combinations _ _ _).1 hb').1
    rw [sublist_eq_filter List.nodup_range ha1, sublist_eq_filter List.nodup_range hb1]
    apply List.filter_congr
    intro i hi
    have hi' : i < 60 := List.mem_range.1 hi
    have ea := overwrite_getElem? (List.replicate 60 6) a sp.Z i (by simpa using hi')
    have eb := overwrite_getElem? (List.replicate 60 6) b sp.Z i (by simpa using hi')
    rw [hab, eb, hb i hi'] at ea
    have : i ∈ a ↔ i ∈ b := by
      by_cases h : i ∈ a <;> by_cases h' : i ∈ b <;> simp [h, h', hz, Ne.symm hz] at ea ⊢
    simp [this]
  · rw [buckyGenSpeckle, List.length_map, length_combinations, List.length_range]
  · intro m
    rw [← more_carbon hz]
    unfold buckyGenSpeckle
    rw [List.mem_map]
    constructor
    · rintro ⟨c, hc, rfl⟩
      obtain ⟨g1, g2⟩ := (h2 c.toFinset).1 (List.mem_map.2 ⟨c, hc, rfl⟩)
      refine ⟨c.toFinset, g2, ?_, overwrite_subst _ _ _⟩
      intro i hi
      have := g1 hi
      rw [List.mem_toFinset, List.mem_range] at this
      exact ⟨6, hb i this, Ne.symm hz⟩
    · rintro ⟨S, g1, g2, g3⟩
      obtain ⟨c, hc, rfl⟩ := List.mem_map.1 ((h2 S).2 ⟨by
        intro i hi
        obtain ⟨v, hv, _⟩ := g2 i hi
        rw [List.mem_toFinset, List.mem_range]
        simpa using (List.getElem?_eq_some_iff.1 hv).1, g1⟩)
      exact ⟨c, hc, (overwrite_subst _ _ _).unique g3⟩

/-- **C74 (agreement).** Without hash collisions, filtering the direct enumeration and growing speckle by speckle from the carbon
molecule give the same number of structures, and every structure of one is the image of a structure of the other. -/
theorem C74_agreement (hash : List ℤ → ℕ) (sp : Specie) (hz : sp.Z ≠ 6) (nMax : ℕ) :
    ∃ b ls, Bucky.new (List.replicate 60 6) = .ok b ∧ b.allSpeckleGen hash nMax sp = .ok ([List.replicate 60 6] :: ls) ∧ ls.length = nMax ∧
      ∀ (k : ℕ) l, ls[k]? = some l →
        (∀ j ≤ k, Set.InjOn hash {m : List ℤ | m.length = 60 ∧ (∀ v ∈ m, v = 6 ∨ v = sp.Z) ∧ m.count sp.Z = j + 1}) →
        ∃ direct, b.toNodup hash (buckyGenSpeckle sp (k + 1)) = .ok direct ∧
          direct.length = l.length ∧ (∀ m ∈ direct, ∃ m' ∈ l, Spec.Image buckyPermTable m' m) ∧
          ∀ m ∈ l, ∃ m' ∈ direct, Spec.Image buckyPermTable m' m := by
  have hlen : ∀ k, ∀ m ∈ MoreSpeckles (List.replicate 60 6) sp.Z k, m.length = 60 := fun k m hm => ((more_carbon hz k m).1 hm).1
  have himg : ∀ k, ∀ d ∈ MoreSpeckles (List.replicate 60 6) sp.Z k, ∀ m, Rel buckyPermTable d m →
      m ∈ {m : List ℤ | m.length = 60 ∧ (∀ v ∈ m, v = 6 ∨ v = sp.Z) ∧ m.count sp.Z = k} := by
    rintro k d hd m ⟨p, hp, rfl⟩
    obtain ⟨h1, h2, h3⟩ := (more_carbon hz k d).1 hd
    have hlt : ∀ i ∈ p, i < d.length := by rw [h1]; exact (bucky_group.perm p hp).lt
    refine ⟨by rw [gather_length hlt]; exact (bucky_group.perm p hp).length_eq.trans List.length_range, ?_, ?_⟩
    rotate_left
    · rw [(gather_perm (by rw [h1]; exact bucky_group.perm p hp)).count_eq, h3]
    intro v hv
    obtain ⟨i, hi⟩ := List.mem_iff_getElem?.1 hv
    rw [gather_getElem? hlt] at hi
    obtain ⟨a, _, hi⟩ := Option.bind_eq_some_iff.1 hi
    exact h2 v (List.mem_of_getElem? hi)
  obtain ⟨b, ls, hb, h1, h2, h3⟩ := C61_representatives hash (List.replicate 60 6) (by simp) nMax sp
  refine ⟨b, ls, hb, h1, ?_, ?_⟩
  · rw [h2, List.count_replicate, if_neg (by simpa using Ne.symm hz)]; omega
  · intro k l hl hinj
    have hT := h3 k l hl (fun j hj => (hinj j hj).mono (by
      rintro m ⟨d, hd, hm⟩
      exact himg (j + 1) d hd m ((image_rel (hlen _ d hd)).1 hm)))
    rw [bucky_new] at hb
    injection hb with hb
    subst hb
    obtain ⟨_, _, hmem⟩ := C74_gen_speckle sp hz (k + 1)
    have hmem' : ∀ m, m ∈ buckyGenSpeckle sp (k + 1) ↔ m ∈ MoreSpeckles (List.replicate 60 6) sp.Z (k + 1) := fun m => by
      rw [hmem, more_carbon hz]
    have hl60 : ∀ m ∈ buckyGenSpeckle sp (k + 1), m.length = 60 := fun m hm => ((hmem m).1 hm).1
    have hD := dedupNum_transversal hash bucky_group (buckyGenSpeckle sp (k + 1)) hl60 ((hinj k le_rfl).mono (by
      rintro m ⟨d, hd, hm⟩
      exact himg (k + 1) d ((hmem' d).1 hd) m hm))
    have hset : {m | m ∈ buckyGenSpeckle sp (k + 1)} = MoreSpeckles (List.replicate 60 6) sp.Z (k + 1) := Set.ext hmem'
    rw [hset] at hD
    have hD' : Spec.Transversal (Spec.Image buckyPermTable) _ _ := hD.congr fun a ha _ _ => (image_rel (hlen _ a ha)).symm
    refine ⟨dedupL hash (isoNum hash buckyPermTable) [] (buckyGenSpeckle sp (k + 1)), ?_, ?_, ?_, ?_⟩
    rotate_left
    · refine transversal_length (R := Spec.Image buckyPermTable) ?_ ?_ hD' hT
      · intro a ha c hc h
        rw [image_rel (hlen _ a ha)] at h
        rw [image_rel (hlen _ c hc)]
        exact h.symm bucky_group (hlen _ a ha)
      · intro a ha c hc d _ h h'
        rw [image_rel (hlen _ a ha)] at h ⊢
        rw [image_rel (hlen _ c hc)] at h'
        exact h.trans bucky_group (hlen _ a ha) h'
    · exact fun m hm => hT.2.1 m (hD'.1 m hm)
    · exact fun m hm => hD'.2.1 m (hT.1 m hm)
    · exact buckyNodup_eq hash buckyPermTable [] _ fun m hm p hp => by
        rw [hl60 m hm]; exact (bucky_group.perm p hp).lt

/-! ## Non-vacuity -/

/-- a molecule with two boron atoms -/
def exBuckyNumbers : List ℤ := [5, 5] ++ List.replicate 58 6

example : exBuckyNumbers.length = 60 ∧ exBuckyNumbers.count 5 = 2 := by decide

/-- there are hash functions without collisions, so the hypothesis of `C61_representatives` can be met -/
example : ∃ hash : List ℤ → ℕ, Function.Injective hash := ⟨Encodable.encode, Encodable.encode_injective⟩

example : (4 : ℕ) ∈ decRow (buckyCodes.getD 1 0) := by decide +kernel

/-- row 1 is not the identity: `C60_false` has something to say -/
example : buckyRow 1 ∈ buckyPermTable ∧ buckyRow 1 ≠ List.range 60 :=
  ⟨(mem_table_iff _).2 ⟨1, by omega, rfl⟩, by decide +kernel⟩

end Verif
