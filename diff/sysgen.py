"""Random transport, packetised and program streams for the differential test."""
import random
class G:
    def __init__(s,seed): s.r=random.Random(seed); s.seed=seed
    def w(s,v,k): return format(v&((1<<k)-1),'0%db'%k) if k else ''
    def rb(s,k): return s.w(s.r.getrandbits(k) if k else 0,k)
    def by(s,n): return ''.join(s.w(s.r.choice([0x47,0,1,255,s.r.randrange(256)]),8) for _ in range(n))
    def ch(s,p): return s.r.random()<p
    # transport stream
    def af(s,room):
        r=s.r
        f=[s.ch(.3) for _ in range(8)]
        b=''
        if f[3]: b+=s.rb(48)
        if f[4]: b+=s.rb(48)
        if f[5]: b+=s.rb(8)
        if f[6]:
            n=r.randrange(12); b+=s.w(n if s.ch(.95) else r.randrange(256),8)+s.by(n)
        if f[7]:
            g=[s.ch(.6) for _ in range(3)]; e=''.join('01'[x] for x in g)+s.rb(5)
            if g[0]: e+=s.rb(16)
            if g[1]: e+=s.rb(24)
            if g[2]: e+=s.rb(40)
            if s.ch(.5): e+=s.by(r.randrange(4)) if s.ch(.3) else ''
            b+=s.w(len(e)//8 if s.ch(.9) else r.randrange(14),8)+e
        body=''.join('01'[x] for x in f)+b
        if len(body)//8>room: body=body[:8*room]
        if s.ch(.1): body=''
        pad=r.choice([0,0,1,5,room-len(body)//8]) if len(body)//8<room else 0
        if s.ch(.4): pad=room-len(body)//8
        pad=max(0,min(pad,room-len(body)//8))
        body+='1'*(8*pad)
        return s.w(len(body)//8,8)+body
    def ts(s):
        r=s.r; out=''
        for _ in range(r.randrange(1,14)):
            afc=r.choice([1,1,1,3,3,2,0]) if s.ch(.95) else r.randrange(4)
            pid=r.choice([5,5,5,6,0x1fff])
            h=s.w(0x47,8)+'01'[s.ch(.1)]+'01'[s.ch(.3)]+'01'[s.ch(.2)]+s.w(pid,13)+s.rb(2)+s.w(afc,2)+s.rb(4)
            b=''
            if afc in(2,3): b+=s.af(183 if afc==2 else r.choice([182,100,183]))
            if s.ch(.02): b=s.w(r.choice([184,183,200,255]),8)+b[8:]
            if afc in(1,3): b+=s.by(184-len(b)//8)
            elif afc==0 and s.ch(.5): b+=s.by(r.randrange(184))
            if s.ch(.06): b=b[:r.randrange(len(b)+1)]
            elif s.ch(.05): b+=s.by(r.choice([1,3,190]))
            out+=h+b
        if s.ch(.1): out=s.by(r.randrange(200))+out
        return s.spoil(out)
    def spoil(s,out):
        r=s.r
        if s.ch(.3) and out:
            l=list(out)
            for _ in range(r.choice([1,1,3])):
                i=r.randrange(len(l)); l[i]='10'[int(l[i])]
            out=''.join(l)
        if s.ch(.3): out=out[:r.randrange(len(out)+1)]
        if s.ch(.7): out=out[:len(out)//8*8]
        return out
    # packetised stream
    def stamp(s,m): return s.w(m,4)+s.rb(3)+'1'+s.rb(15)+'1'+s.rb(15)+'1'
    def pes(s,unb):
        r=s.r
        i=r.choice([0xe0,0xe0,0xe0,0xc0,0xbd,0xbe,0xbf,0xbc,r.randrange(256)])
        o=s.w(1,24)+s.w(i,8)
        if i in(0xbc,0xbf,0xf0,0xf1,0xff,0xf2,0xf8):
            if s.ch(.3):
                n=r.randrange(6); return o+s.w(n,16)+s.by(n)
            return o+s.w(0,16)
        if i==0xbe:
            n=r.randrange(20); return o+s.w(n,16)+'1'*(8*n)
        pf=r.choice([0,2,3,1]); ef=s.ch(.3)
        fl=''.join('01'[s.ch(.01)] for _ in range(5))
        x=''
        if pf==2: x+=s.stamp(2)
        if pf==3: x+=s.stamp(3)+s.stamp(1)
        if ef:
            pd=s.ch(.5); ps=s.ch(.5)
            x+='01'[pd]+'01'[s.ch(.02)]+'01'[s.ch(.02)]+'01'[ps]+s.rb(3)+'01'[s.ch(.02)]
            if pd: x+=s.by(16)
            if ps: x+='01'+s.rb(14)
        st=r.choice([0,0,0,1,4])
        hd=len(x)//8+st
        if s.ch(.02): hd=r.randrange(256)
        h='10'+s.rb(6)+s.w(pf,2)+fl+'01'[ef]+s.w(hd,8)+x+'1'*(8*st)
        pl=s.by(r.choice([0,1,3,10,50]))
        if unb and s.ch(.8): return o+s.w(0,16)+h+pl
        return o+s.w(len(h+pl)//8,16)+h+pl
    def pesstream(s):
        segs=[]
        for _ in range(s.r.randrange(1,4)):
            b=''
            for _ in range(s.r.randrange(0,5)): b+=s.pes(False)
            if s.ch(.5): b+=s.pes(True)
            segs.append([s.spoil(b) if s.ch(.4) else b,'eop'])
        if s.ch(.8): segs[-1][1]='eof'
        return segs
    # program stream
    def sysh(s):
        r=s.r
        k=''.join(s.w(r.randrange(128,256),8)+('11' if s.ch(.97) else s.rb(2))+s.rb(14) for _ in range(r.randrange(4)))
        m=lambda: '1' if s.ch(.99) else '0'
        return s.w(0x1bb,32)+s.rb(16)+m()+s.rb(22)+m()+s.rb(6)+s.rb(4)+m()+s.rb(5)+s.rb(1)+s.rb(7)+k
    def pack(s):
        r=s.r; n=r.choice([0,0,1,7]); m=lambda: '1' if s.ch(.995) else '0'
        b=s.w(0x1ba,32)+'01'+s.rb(3)+m()+s.rb(15)+m()+s.rb(15)+m()+s.rb(9)+m()+s.rb(22)+m()+m()+s.rb(5)+s.w(n,3)+'1'*(8*n)
        if s.ch(.5): b+=s.sysh()
        return b
    def ps(s):
        r=s.r; o=''
        for _ in range(r.randrange(1,5)):
            o+=s.pack()
            for _ in range(r.choice([0,1,1,2,3])): o+=s.pes(s.ch(.05))
        if s.ch(.8): o+=s.w(0x1b9,32)
        if s.ch(.2): o+=s.by(5)
        o=s.spoil(o) if s.ch(.5) else o
        return o
    def sizes(s): 
        k=s.r.choice([1,2,3])
        return [s.r.choice([0,1,5,100,184,188,400,s.r.randrange(600)][(0 if s.ch(.2) else k):]) for _ in range(s.r.randrange(3,20))]
    def job(s):
        r=s.r; mode=r.choice('TRRUUEQHK')
        spec='-'
        if mode=='T': segs=[[s.ts(),'eof']]
        elif mode in 'RU':
            segs=[[s.ts(),'eof']]
            w=r.choice(['t','p 5','p 6','n 8191'])
            if mode=='U': spec=w
            else: spec=','.join([w,r.choice(['-','-','-','u 5','p 6','t']),r.choice(['t','t','n 6','v 5'])])
        elif mode in 'EQ': segs=s.pesstream()
        else: segs=[[s.ps(),'eof']]
        return mode,spec,s.sizes(),segs
