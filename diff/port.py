"""Literal port of /repo/video (Go) to Python.  Tables are parsed from the Go text."""
import re, sys
R='/repo/video/'
class GoErr(Exception):
    def __init__(s,k): s.k=k
class GoPanic(Exception): pass
class Hang(Exception): pass

# ---- bit reader contract -------------------------------------------------
class BR:
    def __init__(s,bits): s.b=bits; s.p=0; s.n=len(bits)
    def fail(s):
        k='eof' if s.p>=s.n else 'ueof'
        s.p=max(s.p,s.n)
        raise GoErr(k)
    def read(s,k):
        if s.p+k>s.n: s.fail()
        v=int(s.b[s.p:s.p+k] or '0',2); s.p+=k; return v
    def read1(s): return s.read(1)==1
    def peek(s,k):
        if s.p+k>s.n: s.fail()
        return int(s.b[s.p:s.p+k] or '0',2)
    def skip(s,k):
        if s.p+k>s.n: s.fail()
        s.p+=k
    def aligned(s): return s.p%8==0
    def align(s):
        s.p=min(s.n,s.p+(-s.p)%8) if s.n%8==0 else s.p+(-s.p)%8

# ---- tables --------------------------------------------------------------
def parse(txt,conv):
    t={}
    txt+='\n'
    for m in re.finditer(r'"([01 ]+)":\s*([^\n]*?),\s*(?://[^\n]*)?\n',txt):
        t[m.group(1).replace(' ','')]=conv(m.group(2))
    return t
def huff(t,br):
    code=''
    while True:
        code+='1' if br.read1() else '0'
        if code in t: return t[code]
        if not any(k.startswith(code) for k in t): raise GoErr('huff')
src=lambda f: open(R+f).read()
def between(s,a,b):
    i=s.index(a); return s[i:s.index(b,i)]
ADDR=parse(between(src('macroblock_addressing.go'),'HuffmanTable{','})'),int)
CBP=parse(between(src('coding_block_pattern.go'),'HuffmanTable{','})'),lambda x:int(re.search(r'\d+',x).group()))
MOT=parse(between(src('motion_vectors.go'),'HuffmanTable{','})'),int)
d=src('dtc_coefficients.go')
DCL=parse(between(d,'dctDcSizeLuminanceTable =','\n}'),lambda x:int(re.search(r'\d+',x).group()))
DCC=parse(between(d,'dctDcSizeChrominanceTable =','\n}'),lambda x:int(re.search(r'\d+',x).group()))
def dctv(x):
    if 'Escape' in x: return 'esc'
    if 'EndOfBlock' in x: return 'eob'
    m=re.search(r'\{(\d+), (\d+)\}',x); return (int(m[1]),int(m[2]))
dc=between(d,'var dctCoefficientTables','\n}\n')
# four inner tables: lines "\t\t{" ... "\t\t},"
inner=re.findall(r'\{\n(\t\t\t".*?)\n\t\t\}',dc,re.S)
assert len(inner)==4,len(inner)
DCT=[[parse(inner[0]+'\n',dctv),parse(inner[1]+'\n',dctv)],[parse(inner[2]+'\n',dctv),parse(inner[3]+'\n',dctv)]]
def mbt(x):
    v=re.findall(r'\b(true|false)\b',x); return dict(zip(['quant','fwd','bwd','pattern','intra','stw'],[a=='true' for a in v]))
mt=src('macroblock_type.go')
TI=parse(between(mt,'var iFrameMacroblockTypesTable','\n}'),mbt)
TP=parse(between(mt,'var pFrameMacroblockTypesTable','\n}'),mbt)
TB=parse(between(mt,'var bFrameMacroblockTypesTable','\n}'),mbt)
nums=lambda s:[int(x) for x in re.findall(r'-?\d+',s)]
sc=between(src('decode_block.go'),'{\n\t{','\n}\n'); a=nums(sc); assert len(a)==128
SCAN=[a[:64],a[64:]]
q=src('quantiser_scale_table.go'); a=nums(q[q.index('{\n'):]); assert len(a)==64,len(a)
QS=[a[:32],a[32:]]
q=src('quantisation_matrix.go'); a=[int(x) for x in re.findall(r'\b(\d+),|\b(\d+)\}',q) for x in x if x]
assert len(a)==128,len(a)
DEFI,DEFN=a[:64],a[64:]

def i32(x): return (x+2**31)%2**32-2**31
def tdiv(a,b):
    q=abs(a)//abs(b); return q if (a<0)==(b<0) else -q

# ---- image ---------------------------------------------------------------
class Img: pass
def newYCbCr(w,h,ratio):
    # image.NewYCbCr for Rect(0,0,w,h) with w,h multiples of 16
    m=Img(); m.ys=w
    if ratio=='444': cw,ch=w,h
    elif ratio=='422': cw,ch=(w+1)//2,h
    elif ratio=='420': cw,ch=(w+1)//2,(h+1)//2
    m.cs=cw; m.Y=bytearray(w*h); m.Cb=bytearray(cw*ch); m.Cr=bytearray(cw*ch); m.w=w;m.h=h
    return m
def ix(ch,i):
    if ch is None or i<0 or i>=len(ch): raise GoPanic()
    return ch[i]
def sl(ch,a,b):
    if a<0 or b<a or b>(len(ch) if ch is not None else 0): raise GoPanic()
class View:  # ch[off:]
    def __init__(s,ch,off):
        if off<0 or off>len(ch): raise GoPanic()
        s.ch=ch;s.off=off
    def put(s,a,b,data):
        if a<0 or b<a or s.off+b>len(s.ch): raise GoPanic()
        s.ch[s.off+a:s.off+b]=data

PSC,GRP,EXT,USR,SEQ,END=0x100,0x1B8,0x1B5,0x1B2,0x1B3,0x1B7
def isSlice(c): return 0x101<=c<=0x1AF

class VS:
    def __init__(s,bits):
        s.br=BR(bits); s.sh=s.se=s.gop=s.ph=s.pce=None
        s.qm=[[0]*64 for _ in range(4)]
        s.frames=[[None,0,False],[None,0,False]]; s.past=s.future=None; s.fc=0
    # helpers
    def assert_(s,code):
        if s.br.peek(32)!=code: raise GoErr('usc')
        s.br.skip(32)
    def assertid(s,i):
        if s.br.peek(4)!=i: raise GoErr('uext')
        s.br.skip(4)
    def nsc(s):
        br=s.br
        if not br.aligned(): br.align()
        while True:
            if br.peek(24)==1: return
            if br.read(8)!=0: raise GoErr('nonzero')
    def marker(s):
        if not s.br.read1(): raise GoErr('marker')
    def size(s):
        w,h=s.sh['w'],s.sh['h']
        if s.se is not None: w|=s.se['hx']<<12; h|=s.se['vx']<<12
        return w,h
    def matrix(s): return [s.br.read(8) for _ in range(64)]
    def sequence_header(s):
        br=s.br; s.assert_(SEQ); sh={}
        sh['w']=br.read(12); sh['h']=br.read(12); br.read(4); br.read(4); br.read(18); s.marker(); br.read(10); br.read1()
        mi=mn=None
        if br.read1(): mi=s.matrix()
        if br.read1(): mn=s.matrix()
        s.nsc()
        if mi is None: mi=DEFI
        if mn is None: mn=DEFN
        s.qm[0]=mi;s.qm[2]=mi;s.qm[1]=mn;s.qm[3]=mn
        s.sh=sh
    def sequence_extension(s):
        # self.SequenceExtension, err = sequence_extension(): the pointer is nil on an error before the end,
        # and the header with the error of next_start_code otherwise
        br=s.br
        try:
            s.assert_(EXT); s.assertid(1); e={}
            br.read(8); br.read(1); e['cf']=br.read(2); e['hx']=br.read(2); e['vx']=br.read(2); br.read(12); s.marker()
            br.read(8); br.read(1); br.read(2); br.read(5)
        except GoErr: s.se=None; raise
        s.se=e
        s.nsc()
    def gop_header(s):
        br=s.br; s.assert_(GRP); br.read(25); br.read1(); br.read1(); s.nsc(); return {}
    def picture_header(s):
        br=s.br
        try:
            s.assert_(PSC); p={}
            p['tr']=br.read(10); p['pct']=br.read(3); br.read(16)
            if p['pct'] in (2,3): br.read(1); br.read(3)
            if p['pct']==3: br.read(1); br.read(3)
            while True:
                if br.peek(1)==0: break
                br.skip(1); br.read(8)
            br.skip(1)
        except GoErr: s.ph=None; raise
        s.ph=p
        s.nsc()
    def pce_(s):
        br=s.br
        try:
            s.assert_(EXT); s.assertid(8); p={}
            f=[[0,0],[0,0]]
            f[0][0]=br.read(4); f[0][1]=br.read(4); f[1][0]=br.read(4); f[1][1]=br.read(4); p['f']=f
            p['dcp']=br.read(2); p['ps']=br.read(2); br.read1(); p['fpfd']=br.read(1); p['cmv']=br.read1()
            p['qst']=br.read(1); p['ivf']=br.read(1); p['as']=br.read(1)
            br.read1(); br.read1(); br.read1()
            if br.read1(): br.read1(); br.read(3); br.read1(); br.read(7); br.read(8)
        except GoErr: s.pce=None; raise
        s.pce=p
        s.nsc()
    def user_data(s):
        br=s.br; s.assert_(USR)
        while True:
            if br.peek(24)==1: break
            br.read(8)
        s.nsc()
    def qme(s):
        br=s.br
        try: s.assertid(3)
        except GoErr: pass
        if br.read1(): m=s.matrix(); s.qm[0]=m; s.qm[2]=m
        if br.read1(): m=s.matrix(); s.qm[1]=m; s.qm[3]=m
        if br.read1(): s.qm[2]=s.matrix()
        if br.read1(): s.qm[3]=s.matrix()
        s.nsc()
    def sde(s):
        br=s.br; s.assertid(2); br.read(3)
        try: cd=br.read1()
        except GoErr: cd=False
        if cd: br.read(8);br.read(8);br.read(8)
        br.read(14); s.marker(); br.read(14); s.nsc()
    def sse(s):
        s.assertid(5); s.br.read(2); s.br.read(4); raise GoPanic()
    def ptse(s):
        br=s.br; s.assertid(10); br.read(2); br.read(10); s.marker(); br.read(10); s.nsc()
    def extension_data(s,i):
        br=s.br
        while True:
            if br.peek(32)!=EXT: break
            br.skip(32)
            if i==0:
                if br.peek(4)==2: s.sde()
                else: s.sse()
            elif i==2:
                k=br.peek(4)
                if k==3: s.qme()
                elif k in (4,7,9): raise GoPanic()
                else: s.ptse()
    def eaud(s,i):
        br=s.br
        while True:
            n=br.peek(32)
            if n!=EXT and n!=USR: break
            elif i!=1 and n==EXT: s.extension_data(i)
            elif n==USR: s.user_data()
            else: raise Hang()
    # ---- frame store
    def fs_gop(s):
        for f in s.frames: f[2]=True
    def fs_set(s,tr):
        for f in s.frames:
            if f[0] is not None:
                if f[2] or f[1]<tr: s.past=f[0]
                else: s.future=f[0]
    def fs_add(s,f,tr): s.frames=[s.frames[1],[f,tr,False]]
    def tryGet(s,tr):
        for f in s.frames:
            if f[0] is not None and not f[2] and f[1]==tr: return f[0]
        return None
    def next(s):
        img=s.tryGet(s.fc)
        if img is not None: s.fc=(s.fc+1)%2**32; return img
        while True:
            img=s.step()
            if s.ph['tr']==s.fc: s.fc=(s.fc+1)%2**32; return img
    def step(s):
        br=s.br
        if s.sh is None:
            s.nsc(); s.sequence_header()
            if br.peek(32)!=EXT: raise GoErr('mpeg1')
            s.sequence_extension(); s.eaud(0)
        else:
            n=br.peek(32)
            if n not in (PSC,GRP):
                if br.peek(32)==END: br.skip(32); raise GoErr('eos')
                s.sequence_header(); s.sequence_extension(); s.eaud(0)
        # MORE_FRAMES
        if br.peek(32)==GRP:
            s.gop=s.gop_header(); s.fs_gop(); s.fc=0
            s.eaud(1)
        s.picture_header(); s.pce_(); s.eaud(2)
        s.fs_set(s.ph['tr'])
        f=s.picture_data()
        if s.ph['pct'] in (1,2): s.fs_add(f,s.ph['tr'])
        return f
    def picture_data(s):
        if s.se is None: raise GoPanic()
        w,h=s.size()
        mw,mh=(w+15)>>4,(h+15)>>4
        frame=newYCbCr(mw<<4,mh<<4,{1:'420',2:'422',3:'444',0:'444'}[s.se['cf']])
        while True:
            s.slice(frame)
            if not isSlice(s.br.peek(32)): break
        s.nsc()
        return frame
    def slice(s,frame):
        br=s.br; code=br.read(32)
        if not isSlice(code): raise GoErr('usc')
        rv=1<<(7+s.pce['dcp'])
        dcp=[rv]*3
        mvd=MVD()
        row=(code&255)-1
        fsl=Img(); fsl.Y=View(frame.Y,16*row*frame.ys); fsl.Cb=View(frame.Cb,8*row*frame.cs); fsl.Cr=View(frame.Cr,8*row*frame.cs)
        fsl.ys=frame.ys; fsl.cs=frame.cs
        if s.sh['h']>2800: br.read(3)
        qsc=[br.read(5)]
        if br.peek(1)==1:
            br.read1(); br.read1()
            if br.read(7)!=0: raise GoErr('rsv')
            while True:
                if br.peek(1)!=1: break
                br.skip(1)
                br.read(8)
        br.skip(1)
        addr=-1
        while True:
            addr=s.macroblock(addr,row,dcp,rv,mvd,qsc,fsl)
            if br.peek(23)==0: break
        s.nsc()
    def macroblock(s,addr,row,dcp,rv,mvd,qsc,fsl):
        br=s.br; inc=0; pct=s.ph['pct']; pce=s.pce
        def rst():
            dcp[0]=dcp[1]=dcp[2]=rv
        while True:
            if br.peek(11)==8:
                try: br.skip(11)
                except GoErr: pass
                inc+=33
            else: break
        inc+=huff(ADDR,br)
        if addr!=-1 and inc>1:
            if pct==2: pcopy(row,addr+1,inc-1,fsl,s.past)
            elif pct==3: bcopy(row,addr+1,inc-1,mvd,s,fsl)
        if inc>1: rst()
        if pct==2 and inc>1: mvd.reset()
        # mode
        if pct==1: t=huff(TI,br)
        elif pct==2: t=huff(TP,br)
        elif pct==3: t=huff(TB,br)
        else: raise GoPanic()
        fmt=fdt=0; dct=False
        if t['fwd'] or t['bwd']:
            if pce['ps']==3:
                if pce['fpfd']==0: fmt=br.read(2)
            else: fdt=br.read(2)
        if pce['ps']==3 and pce['fpfd']==0 and (t['intra'] or t['pattern']): dct=br.read1()
        if not t['intra']: rst()
        if t['intra'] and not pce['cmv']: mvd.reset()
        if pct==2 and not t['intra'] and not t['fwd']: mvd.reset()
        if t['quant']: qsc[0]=br.read(5)
        if t['fwd'] or (t['intra'] and pce['cmv']): s.motion_vectors(0,fmt,fdt,mvd)
        if t['bwd']: s.motion_vectors(1,fmt,fdt,mvd)
        # previous.set
        if t['intra']: mvd.prev=0
        elif pct==2 and not t['intra'] and not t['fwd'] and not t['bwd']: mvd.prev=1
        elif t['fwd'] and t['bwd']: mvd.prev=3
        elif t['fwd']: mvd.prev=1
        elif t['bwd']: mvd.prev=2
        if t['intra'] and pce['cmv']: s.marker()
        cf=s.se['cf']; cbp=0
        if t['pattern']:
            er=None
            try: cbp=huff(CBP,br)
            except GoErr as e: er=e
            if cf in (2,3): raise GoPanic()
            if er: return 0
        bc={1:6,2:8,3:12}.get(cf,0)
        addr+=inc
        pat=[t['intra']]*12
        if t['pattern']:
            for i in range(6):
                if cbp&(1<<(5-i)): pat[i]=True
            if cf in (2,3): raise GoPanic()
        b=[0]*64
        for i in range(bc):
            cc=[0,0,0,0,1,2,1,2,1,2,1,2][i]
            if pat[i]:
                read_block(br,b,dcp,pce['ivf'],cc,t['intra'])
                s.decode_block(b,cc,qsc[0],t['intra'])
                idct(b)
            else: b[:]=[0]*64
            mcomp(b,mvd,i,row,addr,s.past,s.future)
            update(i,addr,dct,fsl,clamp(b))
        return addr
    def mv_info(s,fmt,fdt):
        if s.pce['fpfd']==1: return (1,'frame',0)
        if fmt==1: return (2,'field',0)
        if fmt==2: return (1,'frame',0)
        if fmt==3: return (1,'field',1)
        if fdt==1: return (1,'field',0)
        if fdt==2: return (2,'field',0)
        if fdt==3: return (1,'field',1)
        raise GoPanic()
    def motion_vectors(s,si,fmt,fdt,mvd):
        br=s.br; f=s.pce['f']; info=s.mv_info(fmt,fdt)
        def part(r,t):
            k=(r,si,t)
            mvd.code[k]=huff(MOT,br)
            fc=f[si][t]
            if fc!=1 and mvd.code[k]!=0:
                mvd.res[k]=br.read((fc-1)%2**32)
            if info[2]==1: raise GoPanic()
            rs=(fc-1)%2**32
            F=(1<<rs) if rs<64 else 0
            code=mvd.code[k]
            if F==1 or code==0: delta=code
            else:
                delta=(abs(code)-1)*F+mvd.res.get(k,0)+1
                if code<0: delta=-delta
            hv=info[1]=='field' and t==1 and s.pce['ps']==3
            p=mvd.pred.get(k,0)
            if hv: p>>=1
            v=p+delta
            if v< -16*F: v+=32*F
            if v>16*F-1: v-=32*F
            mvd.pred[k]=v; mvd.act[k]=v
            if hv: mvd.pred[k]<<=1
        def vec(r): part(r,0); part(r,1)
        if info[0]==1:
            if info[1]=='field' and info[2]!=1: br.read(1)
            vec(0)
        else:
            br.read(1); vec(0); br.read(1); vec(1)
    def decode_block(s,b,cc,qc,intra):
        QF=[b[SCAN[s.pce['as']][i]] for i in range(64)]
        qs=QS[s.pce['qst']][qc]
        if cc==0 or s.se['cf']==1: w=0 if intra else 1
        else: w=2 if intra else 3
        W=s.qm[w]; Fp=[0]*64; tot=0
        for i in range(64):
            x=QF[i]
            if i==0 and intra: y=i32(i32(1<<(3-s.pce['dcp']))*x)
            elif intra: y=tdiv(i32(i32(i32(x*W[i])*qs)*2),32)
            else:
                sg=(x>0)-(x<0)
                y=tdiv(i32(i32(i32(i32(x*2)+sg)*W[i])*qs),32)
            y=2047 if y>2047 else -2048 if y< -2048 else y
            Fp[i]=y; tot=i32(tot+y)
        b[:]=Fp
        if tot&1==0:
            b[63]=Fp[63]-1 if b[63]&1 else Fp[63]+1
class MVD:
    def __init__(s): s.code={};s.res={};s.pred={};s.act={};s.prev=0
    def reset(s): s.pred={};s.act={}
def clamp(b): return bytes(255 if x>255 else 0 if x<0 else x for x in b)
def read_block(br,Q,dcp,ivf,cc,intra):
    n=0
    def put(v):
        nonlocal n
        if n>=64: raise GoPanic()
        Q[n]=v; n+=1
    if intra:
        sz=huff(DCL if cc==0 else DCC,br)
        df=br.read(sz)
        if sz==0: dd=0
        else:
            hr=1<<(sz-1)
            dd=df if df>=hr else (df+1)-2*hr
        Q[0]=i32(dcp[cc]+dd); dcp[cc]=Q[0]; n=1
    while True:
        tb=DCT[1] if intra and ivf==1 else DCT[0]
        v=huff(tb[0] if n==0 else tb[1],br)
        if v=='eob':
            while n<64: put(0)
            return
        if v=='esc':
            run=br.read(6); lv=-2048 if br.read1() else 0; lv+=br.read(11)
        else:
            run,lv=v
            if br.read1(): lv=-lv
        for _ in range(run): put(0)
        put(lv)
w1,w2,w3,w5,w6,w7,r2=[int(re.search(r'\t%s\s*= (\d+)'%k,src('idct.go')).group(1)) for k in 'w1 w2 w3 w5 w6 w7 r2'.split()]
def idct(s):
    I=i32
    for y in range(8):
        y8=y*8
        if not any(s[y8+1:y8+8]):
            dc=I(s[y8]<<3); s[y8:y8+8]=[dc]*8; continue
        x0=I(I(s[y8]<<11)+128); x1=I(s[y8+4]<<11); x2=s[y8+6];x3=s[y8+2];x4=s[y8+1];x5=s[y8+7];x6=s[y8+5];x7=s[y8+3]
        x8=I(w7*I(x4+x5)); x4=I(x8+I((w1-w7)*x4)); x5=I(x8-I((w1+w7)*x5))
        x8=I(w3*I(x6+x7)); x6=I(x8-I((w3-w5)*x6)); x7=I(x8-I((w3+w5)*x7))
        x8=I(x0+x1); x0=I(x0-x1); x1=I(w6*I(x3+x2)); x2=I(x1-I((w2+w6)*x2)); x3=I(x1+I((w2-w6)*x3))
        x1=I(x4+x6); x4=I(x4-x6); x6=I(x5+x7); x5=I(x5-x7)
        x7=I(x8+x3); x8=I(x8-x3); x3=I(x0+x2); x0=I(x0-x2)
        x2=I(I(r2*I(x4+x5))+128)>>8; x4=I(I(r2*I(x4-x5))+128)>>8
        s[y8:y8+8]=[I(x7+x1)>>8,I(x3+x2)>>8,I(x0+x4)>>8,I(x8+x6)>>8,I(x8-x6)>>8,I(x0-x4)>>8,I(x3-x2)>>8,I(x7-x1)>>8]
    for x in range(8):
        y0=I(I(s[x]<<8)+8192); y1=I(s[32+x]<<8); y2=s[48+x];y3=s[16+x];y4=s[8+x];y5=s[56+x];y6=s[40+x];y7=s[24+x]
        y8=I(I(w7*I(y4+y5))+4); y4=I(y8+I((w1-w7)*y4))>>3; y5=I(y8-I((w1+w7)*y5))>>3
        y8=I(I(w3*I(y6+y7))+4); y6=I(y8-I((w3-w5)*y6))>>3; y7=I(y8-I((w3+w5)*y7))>>3
        y8=I(y0+y1); y0=I(y0-y1); y1=I(I(w6*I(y3+y2))+4); y2=I(y1-I((w2+w6)*y2))>>3; y3=I(y1+I((w2-w6)*y3))>>3
        y1=I(y4+y6); y4=I(y4-y6); y6=I(y5+y7); y5=I(y5-y7)
        y7=I(y8+y3); y8=I(y8-y3); y3=I(y0+y2); y0=I(y0-y2)
        y2=I(I(r2*I(y4+y5))+128)>>8; y4=I(I(r2*I(y4-y5))+128)>>8
        for k,v in enumerate([I(y7+y1),I(y3+y2),I(y0+y4),I(y8+y6),I(y8-y6),I(y0-y4),I(y3-y2),I(y7-y1)]): s[8*k+x]=v>>14
def mcomp(b,mvd,i,row,addr,past,future):
    st=[]
    for bit,img,si in ((1,past,0),(2,future,1)):
        if not(mvd.prev&bit and img is not None): continue
        h,v=mvd.act.get((0,si,0),0),mvd.act.get((0,si,1),0)
        if i in (4,5): h>>=1; v>>=1
        hh,vh=h&1==1,v&1==1
        h>>=1; v>>=1
        ch=None; stride=0; ii=0
        if i<4: ch=img.Y; stride=img.ys; ii=((row*16+((i&2)<<2))*stride)+addr*16+((i&1)<<3)
        elif i==4: ch=img.Cb
        elif i==5: ch=img.Cr
        if i in (4,5): stride=img.cs; ii=row*8*stride+addr*8
        ii+=v*stride; ii+=h
        st.append((ch,stride,ii,hh,vh))
    for v in range(8):
        for u in range(8):
            pel=0
            for ch,S,ii,hh,vh in st:
                k=ii+v*S+u
                if not hh and not vh: pel+=ix(ch,k)
                elif hh and not vh: pel+=(ix(ch,k)+ix(ch,k+1))//2
                elif vh and not hh: pel+=(ix(ch,k)+ix(ch,k+S))//2
                else: pel+=(ix(ch,k)+ix(ch,k+1)+ix(ch,k+S)+ix(ch,k+S+1))//4
            if len(st)==2: pel>>=1
            b[v*8+u]=i32(b[v*8+u]+pel)
def update(i,addr,inter,f,cb):
    ch=None; stride=0; base=0
    if i<4: ch=f.Y; stride=f.ys; base=addr*16
    elif i==4: ch=f.Cb; stride=f.cs; base=addr*8
    elif i==5: ch=f.Cr; stride=f.cs; base=addr*8
    if i<4:
        base+=(i&1)<<3
        if inter: base+=((i&2)>>1)*stride; stride*=2
        else: base+=((i&2)<<2)*stride
    for y in range(8):
        di=base+y*stride
        if ch is None: raise GoPanic()
        ch.put(di,di+8,cb[y*8:y*8+8])
def pcopy(row,col,n,dest,src):
    if src is None: raise GoPanic()
    for v in range(16):
        x=col*16; w=n*16
        si=(row*16+v)*src.ys+x; di=v*dest.ys+x
        sl(src.Y,si,si+w); dest.Y.put(di,di+w,src.Y[si:si+w])
    for v in range(8):
        x=col*8; w=n*8
        si=(row*8+v)*src.cs+x; di=v*dest.cs+x
        sl(src.Cb,si,si+w); dest.Cb.put(di,di+w,src.Cb[si:si+w])
        sl(src.Cr,si,si+w); dest.Cr.put(di,di+w,src.Cr[si:si+w])
def bcopy(row,col,n,mvd,vs,dest):
    for a in range(col,col+n):
        for i in range(6):
            b=[0]*64
            mcomp(b,mvd,i,row,a,vs.past,vs.future)
            update(i,a,False,dest,clamp(b))
def run(bits,limit=40):
    vs=VS(bits); out=[]
    for _ in range(limit):
        try:
            f=vs.next()
            out.append('F %d %d %s %s %s'%(f.ys,f.cs,f.Y.hex(),f.Cb.hex(),f.Cr.hex()))
        except GoErr as e: out.append('E '+e.k); break
        except GoPanic: out.append('P'); break
        except Hang: out.append('H'); break
    out.append('pos %d fc %d'%(min(vs.br.p,vs.br.n),vs.fc))
    return out
